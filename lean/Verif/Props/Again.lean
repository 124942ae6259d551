import Verif.Props.RefsBoth
import Verif.Props.TakenBack
import Verif.Props.SubClone

/-! # C151: pushing again what has been pushed -/

namespace Gust

open Spec (InRepo)

/-! ## Lemmas -/

theorem packOf_mono {X : Ext} {fold : Bytes → Bytes} {db db' : Db} (ext : Extends db db') {pack : Bytes} {os : List (Nat × Spec.Obj)} (h : Spec.PackOf X fold db pack os) :
    Spec.PackOf X fold db' pack os := by
  obtain ⟨es, trailer, known, w1, w2, w3, w4⟩ := h.wellFormed
  refine ⟨⟨es, trailer, known, w1, w2, fun x o hx => ?_, w4⟩, h.ids, h.size⟩
  obtain ⟨k1, k2, path, k3⟩ := w3 x o hx
  exact ⟨k1, k2, path, inRepo_mono ext k3⟩

theorem foldl_entry_kept : ∀ (rows : List RefRow) (m : List (Bytes × Bytes)),
    (∀ a ∈ rows, ∀ b ∈ rows, a.refGitId = b.refGitId → a.refName = b.refName) → (∀ p ∈ m, ∀ b ∈ rows, b.refGitId = p.1 → b.refName = p.2) →
    ∀ p, p ∈ rows.foldl (fun m r => entryInsert m r.refGitId r.refName) m ↔ p ∈ m ∨ ∃ r ∈ rows, p = (r.refGitId, r.refName)
  | [], m, _, _, p => by simp
  | r :: rows, m, h1, h2, p => by
    rw [List.foldl_cons, foldl_entry_kept rows _ (fun a ha b hb => h1 a (.tail _ ha) b (.tail _ hb))]
    · rw [mem_entryInsert]
      constructor
      · rintro ((rfl | ⟨k, _⟩) | ⟨a, ha, rfl⟩)
        · exact .inr ⟨r, .head _, rfl⟩
        · exact .inl k
        · exact .inr ⟨a, .tail _ ha, rfl⟩
      · rintro (k | ⟨a, ha, rfl⟩)
        · by_cases e : p.1 = r.refGitId
          · refine .inl (.inl ?_)
            have := h2 p k r (.head _) e.symm
            rw [this, ← e]
          · exact .inl (.inr ⟨k, e⟩)
        · rcases List.mem_cons.1 ha with rfl | ha
          · exact .inl (.inl rfl)
          · exact .inr ⟨a, ha, rfl⟩
    · intro q hq b hb e
      rcases (mem_entryInsert m _ _ q).1 hq with rfl | ⟨hq, _⟩
      · exact h1 b (.tail _ hb) r (.head _) e
      · exact h2 q hq b (.tail _ hb) e

/-- What is told of the refs of a path if those with the same id have the same name. -/
theorem mem_getRefObjectId {E : SqlExt} {db : Db} {u : Bytes}
    (h : ∀ a ∈ Spec.refsAt E.fold db.refs u, ∀ b ∈ Spec.refsAt E.fold db.refs u, a.refGitId = b.refGitId → a.refName = b.refName) (p : Bytes × Bytes) :
    p ∈ getRefObjectId E db u ↔ ∃ r ∈ Spec.refsAt E.fold db.refs u, p = (r.refGitId, r.refName) := by
  unfold getRefObjectId
  have hm : ∀ r, r ∈ E.order (db.refs.filter (fun r => E.fold r.repoPath == E.fold u)) ↔ r ∈ Spec.refsAt E.fold db.refs u := fun r => (E.order_perm _).mem_iff
  rw [foldl_entry_kept _ [] (fun a ha b hb => h a ((hm a).1 ha) b ((hm b).1 hb)) (by simp)]
  simp only [List.not_mem_nil, false_or, hm]

theorem getRefObjectId_nodup (E : SqlExt) (db : Db) (u : Bytes) : (getRefObjectId E db u).Nodup :=
  List.Nodup.of_map Prod.fst (foldl_entry_nodup _ [] List.nodup_nil)

/-- The pack of a complete project is stored. -/
theorem project_saved {X : Ext} {os : List (Nat × Spec.Obj)} (hids : Spec.NoCollision (idOf X) os) (hproj : Spec.Project X os) {St : ObjectSource} {pack : Bytes} {p : Pack} {fuel : Nat}
    (d1 : decodePack X St fuel pack = .ok p) (d2 : p.result.hashObject = Spec.found X os) (hfuel : os.length < fuel) {E : SqlExt} (ha : ∀ n rows, E.acceptNodes n rows = true) (u : Bytes) (db : Db) :
    ∃ db1, savePackfile E fuel p u db = (.ok (), db1) ∧ db1.refs = db.refs := by
  obtain ⟨hist, e, _⟩ := decodePack_hist d1
  obtain ⟨db1, s1⟩ := C48_push_acyclic_partial (p := p) (by rw [e]; exact PackCache.keyed_run hist) (by rw [d2]; exact hproj.complete) (by rw [d2]; exact hproj.finite)
    (os.map (fun q => idOf X q.2)) (by
      intro x o ho
      rw [d2] at ho
      obtain ⟨q, hq, e1, e2⟩ := (found_iff hids _ _).1 ho
      exact List.mem_map.2 ⟨q, hq, by rw [← e2, ← e1]; rfl⟩) fuel (by rw [List.length_map]; omega) E ha u db
  refine ⟨db1, s1, ?_⟩
  have := savePackfile_refs E fuel p u db
  rwa [s1] at this

theorem sentAny_ends {P : ServerExt} {u : Bytes} {c : Spec.PushCmd} {caps pack : Bytes} {m : Moment} {h h' : BothHist} (hs : Spec.SentAny P u c caps pack m h h') :
    ∃ v, h' = h ++ [(m, v)] := by
  cases hs <;> exact ⟨_, rfl⟩

/-- A create command adds its row. -/
theorem created_refsAt {P : ServerExt} {u : Bytes} {c : Spec.PushCmd} (hc : c.Ok) (hcreate : c.old = zeroId) (hnew : c.new ≠ zeroId) {caps : Bytes} (hcaps : caps.length ≤ 4000)
    (hascii : ∀ x ∈ caps, x.toNat < 128) {pack : Bytes} (hpack : (ascii "PACK").isPrefixOf pack = true) {rep : Bytes} {m : Moment} {h h' : BothHist}
    (hpush : Spec.PushedAny P u c caps pack rep m h h') (hf : m.sql.fold = P.D.fold) (hacc : ∀ n rows, m.sql.acceptRefs n rows = true) :
    Spec.refsAt P.D.fold (runBoth P .empty h').web.db.refs u =
      Spec.refsAt P.D.fold (runBoth P .empty h).web.db.refs u ++ [{ repoPath := u, refName := c.name ++ [0], refGitId := c.new }] := by
  rcases pushedAny_refs hc hnew hcaps hascii hpack hpush hf hacc with ⟨_, e⟩ | ⟨ho, _⟩
  · rw [e, refsAt_append]
    simp [Spec.refsAt]
  · exact absurd hcreate ho

/-! ## C151 -/

/-- **C151 (partial)** A push can be made again: after anything anybody has done on the two servers, a client pushes a complete project to create a branch, over HTTP or SSH. Whether or not its answer
arrives, and whatever anybody does on both servers then, the client sends the same push once more, over HTTP or SSH. It is answered with `ok` again, and every clone of the repository, over HTTP or SSH,
has the same objects before and after it. (Missing from the full claim: pushes that update a branch, see `C151_update_false`, and what becomes of the branch, see `C151_two_values_false`; otherwise as for C111.) -/
theorem C151_again_partial (P : ServerExt) (hfold : ∀ a b : Hash, P.D.fold (Hash.toPlainStr a) = P.D.fold (Hash.toPlainStr b) → a = b)
    (u : Bytes) (h h' h2 h'' : BothHist) (m m2 : Moment) (hm : m.sql.fold = P.D.fold) (hacc : Spec.Accepts m.sql) (hacc2 : Spec.Accepts m2.sql)
    (c : Spec.PushCmd) (hc : c.Ok) (hcreate : c.old = zeroId) (caps caps2 : Bytes) (hcaps : caps.length ≤ 4000) (hascii : ∀ x ∈ caps, x.toNat < 128)
    (hcaps2 : caps2.length ≤ 4000) (hascii2 : ∀ x ∈ caps2, x.toNat < 128)
    (os : List (Nat × Spec.Obj)) (pack : Bytes) (hpack : Spec.PackOf P.X P.D.fold (runBoth P .empty h).web.db pack os) (hproj : Spec.Project P.X os)
    (hfuel : os.length < m.fuel) (hfuel2 : os.length < m2.fuel) (hsent : Spec.SentAny P u c caps pack m h h') (hsent2 : Spec.SentAny P u c caps2 pack m2 (h' ++ h2) h'')
    (hfl : Spec.SameFoldAny P.D.fold h'') (hab : Spec.NoneAboveAny P.D.fold u h'') (hun : UniqueIds P.X (runBoth P .empty h'').web.db) :
    (∃ rep2, Spec.PushedAny P u c caps2 pack rep2 m2 (h' ++ h2) h'' ∧
      Spec.reportLines (decide (.sideBand ∈ parseCapabilities caps2 ∨ .sideBand64k ∈ parseCapabilities caps2)) rep2 =
        some [ascii "unpack ok\n", Spec.statusLine (c.name ++ [0]) none]) ∧
      ∀ (m3 m4 : Moment) (ls ls' : List Spec.ReqLine) (t rest t' rest' out out' : Bytes), m3.sql.fold = P.D.fold → m4.sql.fold = P.D.fold → FitsPack P.X (runBoth P .empty h'').web.db →
        (∀ l x, x ∈ m3.ord l ↔ x ∈ l) → Spec.CutOk m3.cut → (∀ l x, x ∈ m4.ord l ↔ x ∈ l) → Spec.CutOk m4.cut → Spec.CloneReq ls t → Spec.CloneReq ls' t' →
        Spec.FetchedAny P u (doneBody ls t rest) out m3 (h' ++ h2) → Spec.FetchedAny P u (doneBody ls' t' rest') out' m4 h'' →
        ∃ file file' ms ms', Spec.readClone out = some file ∧ Spec.readClone out' = some file' ∧ PackHas P.X file ms ∧ PackHas P.X file' ms' ∧ ms.Perm ms' := by
  obtain ⟨v1, e1⟩ := sentAny_ends hsent
  obtain ⟨v2, e2⟩ := sentAny_ends hsent2
  have ext2 : Extends (runBoth P .empty (h' ++ h2)).web.db (runBoth P .empty h'').web.db := by
    rw [e2, runBoth_append P .empty (h' ++ h2)]
    exact runBoth_extends P _ _
  have ext1 : Extends (runBoth P .empty h').web.db (runBoth P .empty (h' ++ h2)).web.db := by
    rw [runBoth_append]
    exact runBoth_extends P _ _
  have ext0 : Extends (runBoth P .empty h).web.db (runBoth P .empty h').web.db := by
    rw [e1, runBoth_append]
    exact runBoth_extends P _ _
  have hun2 := ext2.unique hun
  have hun0 := ext0.unique (ext1.unique hun2)
  have hm2 : m2.sql.fold = P.D.fold := hfl (m2, v2) (by rw [e2]; simp)
  have hpack2 := packOf_mono ext1 (packOf_mono ext0 hpack)
  obtain ⟨rep, r1, _⟩ := C111_both_partial P hfold u h h' m hun0 hm hacc c hc caps hcaps hascii (.inl hcreate) os pack hpack hproj hfuel hsent
  obtain ⟨rep2, s1, s2⟩ := C111_both_partial P hfold u (h' ++ h2) h'' m2 hun2 hm2 hacc2 c hc caps2 hcaps2 hascii2 (.inl hcreate) os pack hpack2 hproj hfuel2 hsent2
  refine ⟨⟨rep2, s1, s2⟩, ?_⟩
  intro m3 m4 ls ls' t rest t' rest' out out' hm3 hm4 hfit ho3 hc3 ho4 hc4 hr hr' hf hf'
  have sub2 : ∀ x ∈ h' ++ h2, x ∈ h'' := fun x hx => by rw [e2]; exact List.mem_append_left _ hx
  have sub0 : ∀ x ∈ h, x ∈ h'' := fun x hx => sub2 x (by rw [e1]; simp [hx])
  have run0 := (runBoth_inv P u h (fun p hp => hfl p (sub0 p hp)) (fun p hp q hq => hab p (sub0 p hp) q (sub0 q hq))).2.2
  have run2 := (runBoth_inv P u (h' ++ h2) (fun p hp => hfl p (sub2 p hp)) (fun p hp q hq => hab p (sub2 p hp) q (sub2 q hq))).2.2
  have run3 := (runBoth_inv P u h'' hfl hab).2.2
  obtain ⟨p, d1, d2⟩ := packOf_read hfold (both_nodes P h) hun0 hm hpack (fuel := m.fuel) (by omega)
  obtain ⟨p2, d3, d4⟩ := packOf_read hfold (both_nodes P (h' ++ h2)) hun2 hm2 hpack2 (fuel := m2.fuel) (by omega)
  obtain ⟨st1, a1, a2, _⟩ := pushedAny_http hc hcaps hascii r1
  obtain ⟨st2, b1, b2, _⟩ := pushedAny_http hc hcaps2 hascii2 s1
  obtain ⟨p', k1, k2, _⟩ := pushed_inRepo hc hcaps hascii (decodePack_magic d1) run0 hm hacc.commits a1 (a2 ▸ ext1) hun2
  rw [d1] at k1
  cases k1
  have run2' : StoreRun P.X m2.sql.fold u (runBoth P .empty (h' ++ h2)).web.db := by rw [hm2]; exact run2
  obtain ⟨p2', db1, g1, g2, g3, g4, _, _⟩ := push_run run2' hc hcaps2 hascii2 (decodePack_magic d3) b1
  rw [d3] at g1
  cases g1
  have hsame : ∀ o, InRepo P.D.fold (runBoth P .empty h'').web.db u o ↔ InRepo P.D.fold (runBoth P .empty (h' ++ h2)).web.db u o := by
    intro o
    refine ⟨fun ho => ?_, inRepo_mono ext2⟩
    rw [b2, inRepo_congr g3 g4] at ho
    have hund : UniqueIds P.X db1 := by
      have ext : Extends db1 (runBoth P .empty h'').web.db := by
        rw [b2]
        exact ⟨fun n hn => by rw [g3]; exact hn, fun n hn => by rw [g4]; exact hn⟩
      exact ext.unique hun
    rcases (push_inRepo run2 m2.sql hm2 hacc2.commits m2.fuel pack p2 d3 g2 hund o).1 ho with ho | ⟨x, q1, rfl, q3⟩
    · exact ho
    · rw [d4, ← d2] at q1 q3
      obtain ⟨y, y1, y2⟩ := k2 _ q1 q3
      have hs2 : UniqueIds P.X (runBoth P .empty h'').web.db := hun
      have : o = y := by
        refine hs2 _ _ ?_ (ext2.stored (inRepo_stored y1)) (congrArg MetaData.id y2)
        rw [b2]
        have := inRepo_stored ho
        rcases this with ⟨n, hn, e⟩ | ⟨n, hn, e⟩
        · exact .inl ⟨n, by rw [g3]; exact hn, e⟩
        · exact .inr ⟨n, by rw [g4]; exact hn, e⟩
      rw [this]
      exact y1
  obtain ⟨file, f1, f2⟩ := httpUploadPack_clone ho3 hc3 hr (fetchedAny_http (fun l x => (ho3 l x).1) hf)
  obtain ⟨file', f1', f2'⟩ := httpUploadPack_clone ho4 hc4 hr' (fetchedAny_http (fun l x => (ho4 l x).1) hf')
  obtain ⟨ms, w1, w2⟩ := clone_has run2 hun2 hfold (FitsPack.mono ext2 hfit) hm3 f1
  obtain ⟨ms', w1', w2'⟩ := clone_has run3 hun hfold hfit hm4 f1'
  refine ⟨file, file', ms, ms', f2, f2', w1, w1', (List.perm_ext_iff_of_nodup w1.1 w1'.1).2 fun x => ?_⟩
  rw [w2, w2']
  simp only [hsame]

/-- **C151 (partial)** Both servers tell the same of the refs of the repository before and after a push that creates a branch is made again, if nobody has pushed to the repository meanwhile. (As above; the
branch is stored twice, see `C151_two_values_false`. Repositories without a branch master: C122.) -/
theorem C151_told_partial (P : ServerExt) (u : Bytes) (hb : (0x5c : UInt8) ∉ u) (h h' h2 h'' : BothHist) (m m2 m3 m4 : Moment)
    (hm : m.sql.fold = P.D.fold) (hm2 : m2.sql.fold = P.D.fold) (hm3 : m3.sql.fold = P.D.fold) (hm4 : m4.sql.fold = P.D.fold)
    (hacc : ∀ n rows, m.sql.acceptRefs n rows = true) (hacc2 : ∀ n rows, m2.sql.acceptRefs n rows = true)
    (c : Spec.PushCmd) (hc : c.Ok) (hcreate : c.old = zeroId) (hnew : c.new ≠ zeroId) (caps caps2 : Bytes) (hcaps : caps.length ≤ 4000) (hascii : ∀ x ∈ caps, x.toNat < 128)
    (hcaps2 : caps2.length ≤ 4000) (hascii2 : ∀ x ∈ caps2, x.toNat < 128) (pack : Bytes) (hpack : (ascii "PACK").isPrefixOf pack = true) (rep rep2 : Bytes)
    (hpush : Spec.PushedAny P u c caps pack rep m h h') (hno : Spec.NoPush P u (runBoth P .empty h') h2)
    (hpush2 : Spec.PushedAny P u c caps2 pack rep2 m2 (h' ++ h2) h'')
    (hmas : Spec.HasMaster P.D.fold (runBoth P .empty (h' ++ h2)).web.db u) (htell : Spec.Tellable P.D.fold (runBoth P .empty (h' ++ h2)).web.db.refs u) (t : ServiceType) :
    ∃ head head' refs refs', Spec.ToldBoth P u t m3 (h' ++ h2) head refs ∧ Spec.ToldBoth P u t m4 h'' head' refs' ∧ refs.Perm refs' ∧ (c.new, c.name ++ [0]) ∈ refs' ∧
      ((∀ r ∈ (runBoth P .empty (h' ++ h2)).web.db.refs, ∀ r' ∈ (runBoth P .empty (h' ++ h2)).web.db.refs, r.repoPath = u → r'.repoPath = u → Spec.isMaster P.D.fold r →
        Spec.isMaster P.D.fold r' → r = r') → head = head') := by
  have hrow : ({ repoPath := u, refName := c.name ++ [0], refGitId := c.new } : RefRow) ∈ (runBoth P .empty (h' ++ h2)).web.db.refs := by
    have e := created_refsAt hc hcreate hnew hcaps hascii hpack hpush hm hacc
    have := runBoth_row (P := P) (u := u) (r := { repoPath := u, refName := c.name ++ [0], refGitId := c.new }) rfl hno
      (refsAt_mem.1 (by rw [e]; simp : _ ∈ Spec.refsAt P.D.fold (runBoth P .empty h').web.db.refs u)).1
    rwa [← runBoth_append] at this
  have hrefs : (runBoth P .empty h'').web.db.refs = (runBoth P .empty (h' ++ h2)).web.db.refs ++ [{ repoPath := u, refName := c.name ++ [0], refGitId := c.new }] := by
    rcases pushedAny_refs hc hnew hcaps2 hascii2 hpack hpush2 hm2 hacc2 with ⟨_, e⟩ | ⟨ho, _⟩
    · exact e
    · exact absurd hcreate ho
  have hmem : ∀ r, r ∈ (runBoth P .empty h'').web.db.refs ↔ r ∈ (runBoth P .empty (h' ++ h2)).web.db.refs := by
    intro r
    rw [hrefs, List.mem_append, List.mem_singleton]
    exact ⟨fun k => k.elim id (fun e => e ▸ hrow), .inl⟩
  have hat : ∀ r, r ∈ Spec.refsAt P.D.fold (runBoth P .empty h'').web.db.refs u ↔ r ∈ Spec.refsAt P.D.fold (runBoth P .empty (h' ++ h2)).web.db.refs u := by
    intro r
    rw [refsAt_mem, refsAt_mem, hmem]
  have hinj : ∀ a ∈ Spec.refsAt P.D.fold (runBoth P .empty (h' ++ h2)).web.db.refs u, ∀ b ∈ Spec.refsAt P.D.fold (runBoth P .empty (h' ++ h2)).web.db.refs u,
      a.refGitId = b.refGitId → a.refName = b.refName := fun a ha b hb e => congrArg RefRow.refName (List.inj_on_of_nodup_map htell.ids ha hb e)
  have hmas' : Spec.HasMaster P.D.fold (runBoth P .empty h'').web.db u := by
    obtain ⟨r, k1, k2, k3⟩ := hmas
    exact ⟨r, (hmem r).2 k1, k2, k3⟩
  obtain ⟨r, a1, a2, a3, a4⟩ := told_any hb t m3 hm3 (h' ++ h2) hmas htell.text
  obtain ⟨r', b1, b2, b3, b4⟩ := told_any hb t m4 hm4 h'' hmas' (fun r hr => htell.text r ((hat r).1 hr))
  refine ⟨_, _, _, _, a4, b4, (List.perm_ext_iff_of_nodup (getRefObjectId_nodup _ _ _) (getRefObjectId_nodup _ _ _)).2 fun p => ?_, ?_, fun k => ?_⟩
  · rw [mem_getRefObjectId (by rw [hm3]; exact hinj), mem_getRefObjectId (by rw [hm4]; exact fun a ha b hb => hinj a ((hat a).1 ha) b ((hat b).1 hb)), hm3, hm4]
    simp only [hat]
  · rw [mem_getRefObjectId (by rw [hm4]; exact fun a ha b hb => hinj a ((hat a).1 ha) b ((hat b).1 hb)), hm4]
    exact ⟨_, (hat _).2 (refsAt_mem.2 ⟨hrow, rfl⟩), rfl⟩
  · rw [k r a1 r' ((hmem r').1 b1) a2 b2 a3 b3]

/-- **C151 is false** for pushes that update a branch: such a push is answered, nobody pushes to the repository, and the client, which has lost the answer, sends it again. It gets no answer, now or
ever: over HTTP its connection is dropped, over SSH it is closed or silent. Before, only the branch had the old value. -/
theorem C151_update_false (P : ServerExt) (hfold : ∀ a b : Hash, P.D.fold (Hash.toPlainStr a) = P.D.fold (Hash.toPlainStr b) → a = b)
    (u : Bytes) (hb : (0x5c : UInt8) ∉ u) (h h' h2 h'' : BothHist) (m m2 : Moment) (hm : m.sql.fold = P.D.fold) (hm2 : m2.sql.fold = P.D.fold)
    (hacc : ∀ n rows, m.sql.acceptRefs n rows = true) (hacc2 : Spec.Accepts m2.sql)
    (c : Spec.PushCmd) (hc : c.Ok) (hold : c.old ≠ zeroId) (hnew : c.new ≠ zeroId) (hmove : P.D.fold c.new ≠ P.D.fold c.old)
    (caps caps2 : Bytes) (hcaps : caps.length ≤ 4000) (hascii : ∀ x ∈ caps, x.toNat < 128) (hcaps2 : caps2.length ≤ 4000) (hascii2 : ∀ x ∈ caps2, x.toNat < 128)
    (os : List (Nat × Spec.Obj)) (pack : Bytes) (hpack : Spec.PackOf P.X P.D.fold (runBoth P .empty (h' ++ h2)).web.db pack os) (hproj : Spec.Project P.X os) (hfuel2 : os.length < m2.fuel)
    (hone : ((Spec.refsAt P.D.fold (runBoth P .empty h).web.db.refs u).filter (fun r => P.D.fold r.refGitId == P.D.fold c.old)).length ≤ 1)
    (rep : Bytes) (hpush : Spec.PushedAny P u c caps pack rep m h h')
    (hno : Spec.NoPush P u (runBoth P .empty h') h2) (hsp : Spec.OneSpelling P.D.fold u h2) (hmas : Spec.HasMaster P.D.fold (runBoth P .empty h').web.db u)
    (hun : UniqueIds P.X (runBoth P .empty (h' ++ h2)).web.db) (hsent2 : Spec.SentAny P u c caps2 pack m2 (h' ++ h2) h'') :
    Spec.LostAny P u c caps2 pack m2 (h' ++ h2) h'' := by
  obtain ⟨p, d1, d2⟩ := packOf_read hfold (both_nodes P (h' ++ h2)) hun hm2 hpack (fuel := m2.fuel) (by omega)
  have hgone : ∀ r ∈ Spec.refsAt P.D.fold (runBoth P .empty (h' ++ h2)).web.db.refs u, P.D.fold r.refGitId ≠ P.D.fold c.old := by
    have e := runBoth_refsAt hb hno hsp hmas
    rw [← runBoth_append] at e
    rw [e]
    rcases pushedAny_refs hc hnew hcaps hascii (decodePack_magic d1) hpush hm hacc with ⟨ho, _⟩ | ⟨_, pre, r, post, e1, e2, e3, e4⟩
    · exact absurd ho hold
    · intro x hx
      rw [e4] at hx
      have hr : Spec.refsAt P.D.fold (runBoth P .empty h).web.db.refs u = Spec.refsAt P.D.fold pre u ++ r :: Spec.refsAt P.D.fold post u := by
        rw [e1, refsAt_append, show r :: post = [r] ++ post from rfl, refsAt_append]
        simp [Spec.refsAt, e2]
      rw [hr, List.filter_append, List.filter_cons_of_pos (by simp [e3])] at hone
      simp only [List.length_append, List.length_cons] at hone
      have h1 : (Spec.refsAt P.D.fold pre u).filter (fun r => P.D.fold r.refGitId == P.D.fold c.old) = [] := List.length_eq_zero_iff.1 (by omega)
      have h2 : (Spec.refsAt P.D.fold post u).filter (fun r => P.D.fold r.refGitId == P.D.fold c.old) = [] := List.length_eq_zero_iff.1 (by omega)
      simp only [List.filter_eq_nil_iff, beq_iff_eq] at h1 h2
      rw [refsAt_append, List.mem_append] at hx
      rcases hx with hx | hx
      · exact h1 x hx
      · rcases List.mem_cons.1 (refsAt_mem.1 hx).1 with rfl | hx'
        · exact hmove
        · exact h2 x (refsAt_mem.2 ⟨hx', (refsAt_mem.1 hx).2⟩)
  obtain ⟨db1, s1, s2⟩ := project_saved hpack.ids hproj d1 d2 hfuel2 hacc2.nodes u (runBoth P .empty (h' ++ h2)).web.db
  refine sent_lost hc hcaps2 hascii2 hsent2 (.inl ?_)
  rw [push_answer _ u _ c hc caps2 hcaps2 hascii2 pack (decodePack_magic d1)]
  unfold receiveData
  have hk : ({ RefCommand.new c.old c.new (c.name ++ [0]) with ok := true } : RefCommand).commandType = .update := by
    simp only [RefCommand.new]
    rw [if_neg (fun h => hold h.symm), if_neg (fun h => hnew h.symm)]
  have s3 : handleRefs m2.sql { RefCommand.new c.old c.new (c.name ++ [0]) with ok := true } u db1 = (.panic, db1) := by
    rcases C53_update_scope_partial m2.sql { RefCommand.new c.old c.new (c.name ++ [0]) with ok := true } u db1 hk with ⟨pre, r, post, q1, q2, q3, _⟩ | ⟨_, q⟩
    · rw [hm2] at q2 q3
      exact absurd (by simpa [RefCommand.new] using q3) (hgone r (refsAt_mem.2 ⟨by rw [← s2, q1]; simp, q2⟩))
    · exact q
  simp only [List.getLast?_singleton, mysqlPush, d1, s1, s3]
  rfl

/-- **C151 is false** as to the branch: a push that creates a branch is answered, and made again because the answer got lost; both times it is answered. Later the branch is updated with an answered push.
Then both servers tell every client of the branch twice, under the one name with the old and with the new value, until somebody pushes to the repository. -/
theorem C151_two_values_false (P : ServerExt) (u : Bytes) (hb : (0x5c : UInt8) ∉ u) (h h' h2 h'' h3 h4 h5 : BothHist) (m m2 m3 m4 : Moment)
    (hm : m.sql.fold = P.D.fold) (hm2 : m2.sql.fold = P.D.fold) (hm3 : m3.sql.fold = P.D.fold) (hm4 : m4.sql.fold = P.D.fold)
    (hacc : ∀ n rows, m.sql.acceptRefs n rows = true) (hacc2 : ∀ n rows, m2.sql.acceptRefs n rows = true) (hacc3 : ∀ n rows, m3.sql.acceptRefs n rows = true)
    (c : Spec.PushCmd) (hc : c.Ok) (hcreate : c.old = zeroId) (hnew : c.new ≠ zeroId) (caps caps2 : Bytes) (hcaps : caps.length ≤ 4000) (hascii : ∀ x ∈ caps, x.toNat < 128)
    (hcaps2 : caps2.length ≤ 4000) (hascii2 : ∀ x ∈ caps2, x.toNat < 128) (pack : Bytes) (hpack : (ascii "PACK").isPrefixOf pack = true) (rep rep2 : Bytes)
    (c3 : Spec.PushCmd) (hc3 : c3.Ok) (hname : c3.name = c.name) (hold3 : c3.old = c.new) (hnew3 : c3.new ≠ zeroId) (caps3 : Bytes) (hcaps3 : caps3.length ≤ 4000)
    (hascii3 : ∀ x ∈ caps3, x.toNat < 128) (pack3 : Bytes) (hpack3 : (ascii "PACK").isPrefixOf pack3 = true) (rep3 : Bytes)
    (hpush : Spec.PushedAny P u c caps pack rep m h h') (hno : Spec.NoPush P u (runBoth P .empty h') h2) (hsp : Spec.OneSpelling P.D.fold u h2)
    (hpush2 : Spec.PushedAny P u c caps2 pack rep2 m2 (h' ++ h2) h'') (hno3 : Spec.NoPush P u (runBoth P .empty h'') h3) (hsp3 : Spec.OneSpelling P.D.fold u h3)
    (hpush3 : Spec.PushedAny P u c3 caps3 pack3 rep3 m3 (h'' ++ h3) h4) (hno5 : Spec.NoPush P u (runBoth P .empty h4) h5)
    (hmas : Spec.HasMaster P.D.fold (runBoth P .empty h').web.db u)
    (hfree : ∀ r ∈ Spec.refsAt P.D.fold (runBoth P .empty h).web.db.refs u, P.D.fold r.refGitId ≠ P.D.fold c.new)
    (hmas5 : Spec.HasMaster P.D.fold (runBoth P .empty (h4 ++ h5)).web.db u) (htell : Spec.Tellable P.D.fold (runBoth P .empty (h4 ++ h5)).web.db.refs u) (t : ServiceType) :
    ∃ head refs, Spec.ToldBoth P u t m4 (h4 ++ h5) head refs ∧ (c.new, c.name ++ [0]) ∈ refs ∧ (c3.new, c.name ++ [0]) ∈ refs := by
  have e1 := created_refsAt hc hcreate hnew hcaps hascii hpack hpush hm hacc
  have e2 := runBoth_refsAt hb hno hsp hmas
  rw [← runBoth_append] at e2
  have mas2 : Spec.HasMaster P.D.fold (runBoth P .empty (h' ++ h2)).web.db u := hasMaster_refsAt e2 hmas
  have e3 := created_refsAt hc hcreate hnew hcaps2 hascii2 hpack hpush2 hm2 hacc2
  have mas3 : Spec.HasMaster P.D.fold (runBoth P .empty h'').web.db u := by
    obtain ⟨r, k1, k2, k3⟩ := mas2
    exact ⟨r, (refsAt_mem.1 (by rw [e3]; exact List.mem_append_left _ (refsAt_mem.2 ⟨k1, by rw [k2]⟩) : r ∈ Spec.refsAt P.D.fold (runBoth P .empty h'').web.db.refs u)).1, k2, k3⟩
  have e4 := runBoth_refsAt hb hno3 hsp3 mas3
  rw [← runBoth_append, e3, e2, e1] at e4
  rcases pushedAny_refs hc3 hnew3 hcaps3 hascii3 hpack3 hpush3 hm3 hacc3 with ⟨ho, _⟩ | ⟨_, pre, r, post, q1, q2, q3, q4⟩
  · exact absurd (hold3 ▸ ho) hnew
  · have hr : r = { repoPath := u, refName := c.name ++ [0], refGitId := c.new } := by
      have : r ∈ Spec.refsAt P.D.fold (runBoth P .empty (h'' ++ h3)).web.db.refs u := refsAt_mem.2 ⟨by rw [q1]; simp, q2⟩
      rw [e4] at this
      simp only [List.mem_append, List.mem_singleton] at this
      rcases this with (k | k) | k
      · exact absurd (hold3 ▸ q3) (hfree r k)
      · exact k
      · exact k
    have hcount : 2 ≤ (runBoth P .empty (h'' ++ h3)).web.db.refs.count r := by
      have k : (Spec.refsAt P.D.fold (runBoth P .empty (h'' ++ h3)).web.db.refs u).count r ≤ _ := List.Sublist.count_le r List.filter_sublist
      refine Nat.le_trans ?_ k
      rw [e4, ← hr]
      simp
    rw [q1] at hcount
    simp only [List.count_append, List.count_cons_self] at hcount
    have hmem : r ∈ pre ++ post := List.count_pos_iff.1 (by rw [List.count_append]; omega)
    have in1 : r ∈ (runBoth P .empty h4).web.db.refs := by
      rw [q4]
      rcases List.mem_append.1 hmem with k | k <;> simp [k]
    have in2 : ({ r with refGitId := c3.new } : RefRow) ∈ (runBoth P .empty h4).web.db.refs := by rw [q4]; simp
    have f1 := runBoth_row (P := P) (u := u) (by rw [hr]) hno5 in1
    have f2 := runBoth_row (P := P) (u := u) (r := { r with refGitId := c3.new }) (by rw [hr]) hno5 in2
    rw [← runBoth_append] at f1 f2
    obtain ⟨r0, refs, k1, _, _, _, k5⟩ := told_both hb t m4 hm4 (h4 ++ h5) hmas5 htell
    refine ⟨_, refs, k1, k5.mem_iff.2 (List.mem_map.2 ⟨r, refsAt_mem.2 ⟨f1, q2⟩, by rw [hr]⟩), k5.mem_iff.2 (List.mem_map.2 ⟨_, refsAt_mem.2 ⟨f2, q2⟩, by rw [hr]⟩)⟩

end Gust

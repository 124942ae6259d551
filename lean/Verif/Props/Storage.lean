import Verif.Spec.Storage
import Verif.Lemmas.DemoSql
import Verif.Lemmas.Head
import Verif.Props.Protocol
import Verif.Base.Tactics

/-! # C51, C52, C53: batches of rows, listing refs, updating refs -/

namespace Gust

/-! ## C51 -/

theorem nodeBatches_flatten : ∀ (nodes : List NodeRow) (sum : Nat) (batch : List NodeRow),
    (nodeBatches sum batch nodes).flatten = batch ++ nodes
  | [], sum, batch => by
    rw [nodeBatches]
    split
    · simp
    · rename_i h
      have : batch = [] := by simpa using h
      simp [this]
  | n :: nodes, sum, batch => by
    rw [nodeBatches]
    split
    · rw [nodeBatches_flatten nodes]; simp
    · rw [List.flatten_cons, nodeBatches_flatten nodes]; simp

theorem nodeBatches_rows : ∀ (nodes : List NodeRow) (sum : Nat) (batch : List NodeRow), batch.length ≤ 50 →
    ∀ b ∈ nodeBatches sum batch nodes, b.length ≤ 50
  | [], sum, batch, h => by
    rw [nodeBatches]
    split
    · intro b hb; simp at hb; rw [hb]; exact h
    · intro b hb; cases hb
  | n :: nodes, sum, batch, h => by
    rw [nodeBatches]
    split
    · rename_i hc
      exact nodeBatches_rows nodes _ _ (by simp; omega)
    · intro b hb
      rcases List.mem_cons.1 hb with rfl | hb
      · exact h
      · exact nodeBatches_rows nodes _ _ (by simp) b hb

theorem nodeBatches_size : ∀ (nodes : List NodeRow) (sum : Nat) (batch : List NodeRow),
    Spec.rowsSize batch.tail ≤ sum → Spec.rowsSize batch.tail < 10 * 1024 * 1024 →
    ∀ b ∈ nodeBatches sum batch nodes, Spec.rowsSize b.tail < 10 * 1024 * 1024
  | [], sum, batch, _, h => by
    rw [nodeBatches]
    split
    · intro b hb; simp at hb; rw [hb]; exact h
    · intro b hb; cases hb
  | n :: nodes, sum, batch, h1, h => by
    rw [nodeBatches]
    split
    · rename_i hc
      have e : Spec.rowsSize (batch ++ [n]).tail ≤ sum + n.data.length := by
        cases batch with
        | nil => simp [Spec.rowsSize]
        | cons x xs => simp [Spec.rowsSize] at h1 ⊢; omega
      exact nodeBatches_size nodes _ _ e (by omega)
    · intro b hb
      rcases List.mem_cons.1 hb with rfl | hb
      · exact h
      · exact nodeBatches_size nodes _ _ (by simp [Spec.rowsSize]) (by simp [Spec.rowsSize]) b hb

theorem nodeBatches_nonempty : ∀ (nodes : List NodeRow) (sum : Nat) (batch : List NodeRow), batch ≠ [] →
    ∀ b ∈ nodeBatches sum batch nodes, b ≠ []
  | [], sum, batch, h => by
    rw [nodeBatches]
    split
    · intro b hb; simp at hb; rw [hb]; exact h
    · intro b hb; cases hb
  | n :: nodes, sum, batch, h => by
    rw [nodeBatches]
    split
    · exact nodeBatches_nonempty nodes _ _ (by simp)
    · intro b hb
      rcases List.mem_cons.1 hb with rfl | hb
      · exact h
      · exact nodeBatches_nonempty nodes _ _ (by simp) b hb

/-- Each batch of rows is handed over in order until one is refused. -/
theorem insertNodes_run (E : SqlExt) : ∀ (bs : List (List NodeRow)) (db : Db),
    ∃ k ≤ bs.length, (insertNodes E bs db).2 =
        { db with nodes := db.nodes ++ (bs.take k).flatten, inserts := (insertNodes E bs db).2.inserts } ∧
      ((insertNodes E bs db).1 = .ok () ∧ k = bs.length ∨ (insertNodes E bs db).1 = .panic ∧ k < bs.length)
  | [], db => ⟨0, Nat.le_refl _, by simp [insertNodes], .inl ⟨rfl, rfl⟩⟩
  | b :: bs, db => by
    rw [insertNodes]
    split
    · obtain ⟨k, hk, e, h⟩ := insertNodes_run E bs { db with nodes := db.nodes ++ b, inserts := db.inserts + 1 }
      refine ⟨k + 1, by simp; omega, ?_, ?_⟩
      · rw [e]; simp
      · simpa using h
    · exact ⟨0, by simp, by simp, .inr ⟨rfl, by simp⟩⟩

/-- **C51 (partial)** The batches, put together, are exactly the nodes in order; no batch has more than 50 rows; without its first row a
batch always stays below 10 MiB; no batch is empty if the first node is smaller than 10 MiB. Whatever the database accepts, exactly
the rows of the first batches are stored, once each, and all of them are when the call succeeds. (Missing from the full claim: the
first row of a batch is not counted, see `C51_size_false`, and a first node of 10 MiB or more gives an empty batch, see `C51_empty_false`.) -/
theorem C51_batches_partial (E : SqlExt) (nodes : List NodeRow) (db : Db) :
    ∃ batches : List (List NodeRow), batches.flatten = nodes ∧
      (∀ b ∈ batches, b.length ≤ 50 ∧ Spec.rowsSize b.tail < 10 * 1024 * 1024) ∧
      ((∀ n ∈ nodes.head?, n.data.length < 10 * 1024 * 1024) → ∀ b ∈ batches, b ≠ []) ∧
      ∃ k, (saveNodes E nodes db).2.nodes = db.nodes ++ (batches.take k).flatten ∧
        (saveNodes E nodes db).2.commits = db.commits ∧ (saveNodes E nodes db).2.refs = db.refs ∧
        ((saveNodes E nodes db).1 = .ok () ∧ (saveNodes E nodes db).2.nodes = db.nodes ++ nodes ∨
          (saveNodes E nodes db).1 = .panic ∧ k < batches.length) := by
  refine ⟨nodeBatches 0 [] nodes, by simpa using nodeBatches_flatten nodes 0 [], ?_, ?_, ?_⟩
  · exact fun b hb => ⟨nodeBatches_rows nodes 0 [] (by simp) b hb,
      nodeBatches_size nodes 0 [] (by simp [Spec.rowsSize]) (by simp [Spec.rowsSize]) b hb⟩
  · intro h
    cases nodes with
    | nil => intro b hb; simp [nodeBatches] at hb
    | cons n nodes =>
      have := h n rfl
      rw [nodeBatches, if_pos ⟨by omega, by simp⟩]
      exact nodeBatches_nonempty nodes _ _ (by simp)
  · obtain ⟨k, hk, e, h⟩ := insertNodes_run E (nodeBatches 0 [] nodes) db
    refine ⟨k, ?_, ?_, ?_, ?_⟩
    · show (insertNodes E _ db).2.nodes = _; rw [e]
    · show (insertNodes E _ db).2.commits = _; rw [e]
    · show (insertNodes E _ db).2.refs = _; rw [e]
    · rcases h with ⟨h, rfl⟩ | h
      · refine .inl ⟨h, ?_⟩
        show (insertNodes E _ db).2.nodes = _
        rw [e]
        simp only [List.take_length, nodeBatches_flatten, List.nil_append]
      · exact .inr h

/-- A row with this many bytes of data. -/
def sizedNode (n : Nat) : NodeRow :=
  { gitId := ascii "11", nodeType := ascii "blob", name := ascii "f", mode := ascii "100644", data := List.replicate n 0 }

example : (saveNodes demoSql ((List.range 60).map sizedNode) Db.empty).2.nodes = (List.range 60).map sizedNode ∧
    (saveNodes demoSql ((List.range 60).map sizedNode) Db.empty).2.inserts = 2 := by
  constructor <;> decide +kernel

/-- **C51 is false**: a first row of 10 MiB makes the code insert an empty batch first. -/
theorem C51_empty_false : ∃ nodes : List NodeRow, [] ∈ nodeBatches 0 [] nodes := by
  refine ⟨[sizedNode (10 * 1024 * 1024)], ?_⟩
  rw [nodeBatches, if_neg (by simp only [sizedNode, List.length_replicate]; omega)]
  simp

/-- **C51 is false**: the first row of a later batch is not counted, so two rows of nearly 10 MiB each end up in one batch. -/
theorem C51_size_false : ∃ nodes : List NodeRow, (∀ n ∈ nodes, n.data.length < 10 * 1024 * 1024) ∧
    ∃ b ∈ nodeBatches 0 [] nodes, b.length = 2 ∧ 19 * 1024 * 1024 < Spec.rowsSize b := by
  refine ⟨List.replicate 3 (sizedNode (10 * 1024 * 1024 - 1)), ?_, List.replicate 2 (sizedNode (10 * 1024 * 1024 - 1)), ?_, by simp, ?_⟩
  · intro n hn
    rw [List.eq_of_mem_replicate hn]
    simp only [sizedNode, List.length_replicate]; omega
  · simp only [List.replicate, nodeBatches]
    rw [if_pos (by simp only [sizedNode, List.length_replicate, List.length_nil]; omega),
      if_neg (by simp only [sizedNode, List.length_replicate]; omega), if_pos (by simp only [sizedNode, List.length_replicate, List.length_cons, List.length_nil]; omega)]
    simp
  · simp only [Spec.rowsSize, List.map_replicate, List.sum_replicate, sizedNode, List.length_replicate]
    simp

/-! ## C52 -/

theorem entryInsert_new {α : Type} {m : List (Bytes × α)} {k : Bytes} {v : α} (h : k ∉ m.map Prod.fst) :
    entryInsert m k v = m ++ [(k, v)] := by
  unfold entryInsert
  rw [if_neg]
  simpa using h

theorem entryInsert_keys {α : Type} (m : List (Bytes × α)) (k : Bytes) (v : α) :
    (entryInsert m k v).map Prod.fst = if k ∈ m.map Prod.fst then m.map Prod.fst else m.map Prod.fst ++ [k] := by
  unfold entryInsert
  by_cases h : k ∈ m.map Prod.fst
  · rw [if_pos h, if_pos (by simpa using h), List.map_map]
    apply List.map_congr_left
    intro p _
    simp only [Function.comp_apply]
    split
    · rename_i e; exact e.symm
    · rfl
  · rw [if_neg h, if_neg (by simpa using h)]
    simp

theorem entryInsert_nodup {α : Type} {m : List (Bytes × α)} (hm : (m.map Prod.fst).Nodup) (k : Bytes) (v : α) :
    ((entryInsert m k v).map Prod.fst).Nodup := by
  rw [entryInsert_keys]
  split
  · exact hm
  · rename_i h
    exact List.nodup_append.2 ⟨hm, by simp, by rintro a ha b hb rfl; simp at hb; subst hb; exact h ha⟩

theorem foldl_entry_distinct : ∀ (rows : List RefRow) (m : List (Bytes × Bytes)),
    (m.map Prod.fst ++ rows.map RefRow.refGitId).Nodup →
    rows.foldl (fun m r => entryInsert m r.refGitId r.refName) m = m ++ rows.map (fun r => (r.refGitId, r.refName))
  | [], m, _ => by simp
  | r :: rows, m, h => by
    have hn : r.refGitId ∉ m.map Prod.fst := by
      intro hm
      exact (List.nodup_append.1 h).2.2 _ hm _ (by simp) rfl
    rw [List.foldl_cons, entryInsert_new hn, foldl_entry_distinct rows]
    · simp
    · simpa using h

theorem foldl_entry_nodup : ∀ (rows : List RefRow) (m : List (Bytes × Bytes)), (m.map Prod.fst).Nodup →
    ((rows.foldl (fun m r => entryInsert m r.refGitId r.refName) m).map Prod.fst).Nodup
  | [], m, h => h
  | r :: rows, m, h => by
    rw [List.foldl_cons]
    exact foldl_entry_nodup rows _ (entryInsert_nodup h _ _)

theorem getRefObjectId_perm (E : SqlExt) (db : Db) (path : Bytes)
    (hd : ((Spec.refsAt E.fold db.refs path).map RefRow.refGitId).Nodup) :
    (getRefObjectId E db path).Perm ((Spec.refsAt E.fold db.refs path).map (fun r => (r.refGitId, r.refName))) := by
  unfold getRefObjectId
  have hp := E.order_perm (Spec.refsAt E.fold db.refs path)
  rw [show db.refs.filter (fun r => E.fold r.repoPath == E.fold path) = Spec.refsAt E.fold db.refs path from rfl,
    foldl_entry_distinct _ _ (by simpa using (hp.map RefRow.refGitId).nodup_iff.2 hd)]
  simpa using hp.map _

/-- **C52 (partial)** When the refs of the path have different ids, what a client reads from the advertisement (over HTTP; over SSH the same
without the announcement) is HEAD and exactly the refs stored for the path at that moment, each once with its id and name. (Missing from the full claim: refs with
the same id, see `C52_shared_id_lost`.) -/
theorem C52_advertised_partial (X : Ext) (E : SqlExt) (db db' : Db) (service : ServiceType) (path reply : Bytes)
    (hrep : advertise X E .http service db path = (.ok reply, db'))
    (hd : ((Spec.refsAt E.fold db'.refs path).map RefRow.refGitId).Nodup)
    (hr : ∀ r ∈ Spec.refsAt E.fold db'.refs path, r.refGitId.length = 40 ∧ (∀ x ∈ r.refGitId, Spec.IsHexDigit x) ∧ r.refName.length ≤ 65000 ∧
      (0x0a : UInt8) ∉ r.refName) :
    ∃ headId refs pkts, getHeadObjectId X E db path = (.ok headId, db') ∧
      Spec.readPkts reply = some (.line (ascii "# service=" ++ service.display ++ ascii "\n") :: .flush :: pkts) ∧
      advertised service headId refs pkts ∧
      refs.Perm ((Spec.refsAt E.fold db'.refs path).map (fun r => (r.refGitId, r.refName))) := by
  unfold advertise at hrep
  cases hg : getHeadObjectId X E db path with
  | mk h d =>
    rw [hg] at hrep
    cases h with
    | ok headId =>
      simp only [Prod.mk.injEq, Res.ok.injEq] at hrep
      obtain ⟨rfl, rfl⟩ := hrep
      have hp := getRefObjectId_perm E d path hd
      obtain ⟨a, b⟩ := getHead_hex hg (fun r h e => by
        have h' := hr r (List.mem_filter.2 ⟨(getHead_refs hg).1 r h, by simp [e]⟩)
        exact ⟨h'.1, h'.2.1⟩)
      obtain ⟨pkts, h1, h2⟩ := C60_advertisement_http service headId (getRefObjectId E d path) a b (by
        intro p hp'
        obtain ⟨r, hr', rfl⟩ := List.mem_map.1 (hp.mem_iff.1 hp')
        exact hr r hr')
      exact ⟨headId, _, pkts, rfl, h1, h2, hp⟩
    | err e => simp at hrep
    | panic => simp at hrep
    | spin => simp at hrep

/-- Refs of two repositories; the path of one of them was written in upper case once. -/
def mixedRefs : Db :=
  { Db.empty with refs := [{ repoPath := ascii "/r", refName := ascii "refs/heads/master", refGitId := exId },
      { repoPath := ascii "/q", refName := ascii "refs/heads/master", refGitId := exId },
      { repoPath := ascii "/R", refName := ascii "refs/heads/dev", refGitId := List.replicate 40 0x62 }] }

example : ∃ reply db', advertise demoExt demoSql .http .receivePack mixedRefs (ascii "/r") = (.ok reply, db') ∧
    ∃ headId refs pkts, Spec.readPkts reply = some (.line (ascii "# service=" ++ ServiceType.receivePack.display ++ ascii "\n") :: .flush :: pkts) ∧
      advertised .receivePack headId refs pkts ∧
      refs.Perm [(exId, ascii "refs/heads/master"), (List.replicate 40 0x62, ascii "refs/heads/dev")] := by
  have ha : ∃ reply, advertise demoExt demoSql .http .receivePack mixedRefs (ascii "/r") = (.ok reply, mixedRefs) := by
    unfold advertise
    rw [show getHeadObjectId demoExt demoSql mixedRefs (ascii "/r") = (.ok exId, mixedRefs) from by decide +kernel]
    exact ⟨_, rfl⟩
  obtain ⟨reply, h⟩ := ha
  obtain ⟨headId, refs, pkts, _, h1, h2, h3⟩ := C52_advertised_partial demoExt demoSql mixedRefs mixedRefs .receivePack (ascii "/r") reply h
    (by decide +kernel) (by decide +kernel)
  exact ⟨reply, mixedRefs, h, headId, refs, pkts, h1, h2, by
    rwa [show (Spec.refsAt demoSql.fold mixedRefs.refs (ascii "/r")).map (fun r => (r.refGitId, r.refName)) =
      [(exId, ascii "refs/heads/master"), (List.replicate 40 0x62, ascii "refs/heads/dev")] from by decide +kernel] at h3⟩

/-- **C52 is false**: whatever the database does, of two refs of a path with the same id at most one is listed. -/
theorem C52_shared_id_lost (E : SqlExt) (db : Db) (path id a b : Bytes) (hab : a ≠ b)
    (_ha : { repoPath := path, refName := a, refGitId := id } ∈ db.refs)
    (_hb : { repoPath := path, refName := b, refGitId := id } ∈ db.refs) :
    (id, a) ∉ getRefObjectId E db path ∨ (id, b) ∉ getRefObjectId E db path := by
  have h : ((getRefObjectId E db path).map Prod.fst).Nodup := foldl_entry_nodup _ _ (by simp)
  by_contra hc
  simp only [not_or, not_not] at hc
  obtain ⟨i, hi, e1⟩ := List.mem_iff_getElem.1 hc.1
  obtain ⟨j, hj, e2⟩ := List.mem_iff_getElem.1 hc.2
  have : i = j := by
    refine (List.Nodup.getElem_inj_iff h (hi := by simpa using hi) (hj := by simpa using hj)).1 ?_
    simp [e1, e2]
  subst this
  rw [e1] at e2
  exact hab (by simpa using e2)

/-- Two branches at the same commit. -/
def twoRefs : Db :=
  { Db.empty with refs := [{ repoPath := ascii "/r", refName := ascii "refs/heads/master", refGitId := exId },
      { repoPath := ascii "/r", refName := ascii "refs/heads/dev", refGitId := exId }] }

theorem C52_advertised_false : ∃ (db : Db) (path : Bytes), (Spec.refsAt demoSql.fold db.refs path).length = 2 ∧
    getRefObjectId demoSql db path = [(exId, ascii "refs/heads/dev")] := ⟨twoRefs, ascii "/r", by decide +kernel, by decide +kernel⟩

/-! ## C53 -/

/-- **C53 (partial)** An update never changes anything but the id of one ref of the path that had the old id; if there is none, or the database refuses the statement, it fails and changes nothing. -/
theorem C53_update_scope_partial (E : SqlExt) (cmd : RefCommand) (path : Bytes) (db : Db) (hc : cmd.commandType = .update) :
    (∃ pre r post, db.refs = pre ++ r :: post ∧ E.fold r.repoPath = E.fold path ∧ E.fold r.refGitId = E.fold cmd.oldId ∧
      handleRefs E cmd path db = (.ok (), { db with refs := pre ++ { r with refGitId := cmd.newId } :: post })) ∨
    ((∀ r ∈ db.refs, ¬ (E.fold r.repoPath = E.fold path ∧ E.fold r.refGitId = E.fold cmd.oldId)) ∨ E.acceptUpdate db.inserts cmd.newId = false) ∧
      handleRefs E cmd path db = (.panic, db) := by
  simp only [handleRefs, hc, updateRefs]
  cases h : (E.order ((List.range db.refs.length).filter (fun i => (db.refs[i]?).any (updateMatches E cmd path)))).head? with
  | some i =>
    have hm := order_head h
    rw [List.mem_filter, List.mem_range] at hm
    obtain ⟨hi, hm⟩ := hm
    rw [List.getElem?_eq_getElem hi] at hm
    simp only [Option.any_some, updateMatches, Bool.and_eq_true, beq_iff_eq] at hm
    cases ha : E.acceptUpdate db.inserts cmd.newId with
    | false => exact .inr ⟨.inr rfl, rfl⟩
    | true =>
    refine .inl ⟨db.refs.take i, db.refs[i], db.refs.drop (i + 1), ?_, hm.2, hm.1, ?_⟩
    · rw [List.getElem_cons_drop, List.take_append_drop]
    · simp only [Prod.mk.injEq, true_and, if_true]
      congr 1
      rw [List.modify_eq_take_cons_drop hi]
  | none =>
    rw [order_none] at h
    refine .inr ⟨.inl ?_, rfl⟩
    rintro r hr ⟨h1, h2⟩
    obtain ⟨i, hi, e⟩ := List.mem_iff_getElem.1 hr
    have : i ∈ (List.range db.refs.length).filter (fun i => (db.refs[i]?).any (updateMatches E cmd path)) := by
      rw [List.mem_filter, List.mem_range, List.getElem?_eq_getElem hi, e]
      simp [updateMatches, h1, h2, hi]
    rw [h] at this
    cases this

/-- **C53 (partial)** When the named ref is the only ref of the path with the old id, the update sets exactly this ref to the new id, if the database takes the statement. (Missing from
the full claim: other refs of the path with the same id, see `C53_update_false`.) -/
theorem C53_update_partial (E : SqlExt) (cmd : RefCommand) (path : Bytes) (db : Db) (hc : cmd.commandType = .update)
    (pre post : List RefRow) (r : RefRow) (hdb : db.refs = pre ++ r :: post) (hp : r.repoPath = path) (ho : r.refGitId = cmd.oldId)
    (huniq : ∀ x ∈ pre ++ post, E.fold x.repoPath = E.fold path → E.fold x.refGitId ≠ E.fold cmd.oldId) (hacc : E.acceptUpdate db.inserts cmd.newId = true) :
    handleRefs E cmd path db = (.ok (), { db with refs := pre ++ { r with refGitId := cmd.newId } :: post }) := by
  rcases C53_update_scope_partial E cmd path db hc with ⟨pre', r', post', e, h1, h2, h3⟩ | ⟨hn, _⟩
  · rw [h3]
    rw [hdb] at e
    have key : pre = pre' ∧ r = r' ∧ post = post' := by
      rcases List.append_eq_append_iff.1 e with ⟨c, e1, e2⟩ | ⟨c, e1, e2⟩
      · cases c with
        | nil => simp only [List.nil_append, List.cons.injEq] at e2; simp at e1; exact ⟨e1.symm, e2.1, e2.2⟩
        | cons x xs =>
          simp only [List.cons_append, List.cons.injEq] at e2
          obtain ⟨_, e2⟩ := e2
          exact absurd h2 (huniq r' (by rw [e2]; simp) h1)
      · cases c with
        | nil => simp only [List.nil_append, List.cons.injEq] at e2; simp at e1; exact ⟨e1, e2.1.symm, e2.2.symm⟩
        | cons x xs =>
          simp only [List.cons_append, List.cons.injEq] at e2
          obtain ⟨e3, e2⟩ := e2
          exact absurd h2 (huniq r' (by rw [e1, e3]; simp) h1)
    obtain ⟨rfl, rfl, rfl⟩ := key
    rfl
  · rcases hn with hn | hn
    · exact absurd ⟨by rw [hp], by rw [ho]⟩ (hn r (by rw [hdb]; simp))
    · rw [hacc] at hn
      cases hn

/-- The other commit of the examples. -/
def exId2 : Bytes := List.replicate 40 0x62

example : (handleRefs demoSql (RefCommand.new exId exId2 (ascii "refs/heads/dev")) (ascii "/r")
      { twoRefs with refs := twoRefs.refs.drop 1 }).2.refs =
    [{ repoPath := ascii "/r", refName := ascii "refs/heads/dev", refGitId := exId2 }] := by decide +kernel

/-- **C53 is false**: with two branches at the same commit, an update of one changes the other. -/
theorem C53_update_false : ∃ (db : Db) (cmd : RefCommand) (path : Bytes), cmd.commandType = .update ∧ cmd.refName = ascii "refs/heads/dev" ∧
    db.refs.length = 2 ∧ handleRefs demoSql cmd path db = (.ok (), { db with refs :=
      [{ repoPath := path, refName := ascii "refs/heads/master", refGitId := cmd.newId },
       { repoPath := path, refName := ascii "refs/heads/dev", refGitId := cmd.oldId }] }) :=
  ⟨twoRefs, RefCommand.new exId exId2 (ascii "refs/heads/dev"), ascii "/r", by decide +kernel, by decide +kernel, by decide +kernel,
    by decide +kernel⟩

end Gust

import Verif.Props.LooseRead
import Verif.Lemmas.DemoRepo

/-! # C113: the objects that an incremental fetch from an object directory sends -/

namespace Gust

namespace Spec

/-- An object directory at `root` into which the given objects, and nothing else, have been written, in this order. -/
def filesAt (X : Ext) (root : Bytes) (ms : List MetaData) : MetaData.FS :=
  ms.foldl (fun fs m => (MetaData.writeToFile X m root fs).1) (fun _ => none)

/-- The directory with this id is complete among the objects: it and its sub-directories, nested at most `n` deep, are there, and they hold ordinary files and
directories only. -/
inductive PlainDir (ms : List MetaData) : Nat → Hash → Prop
  | mk {n : Nat} {m : MetaData} {items : List TreeItem} : m ∈ ms → decodeTree m.data = .ok items →
    (∀ i ∈ items, i.itemType = .blob ∨ i.itemType = .tree) →
    (∀ i ∈ items, i.itemType = .tree → PlainDir ms n i.id) →
    PlainDir ms (n + 1) m.id

end Spec

/-- A walk that only notes what the client has adds nothing to the objects to send. -/
theorem parseTree_init (X : Ext) (fs : MetaData.FS) (root : Bytes) : ∀ (fuel : Nat) (id : Hash) (w w' : BaseWalk),
    parseTreeWalk X fs root fuel true id w = .ok w' → w'.result = w.result := by
  intro fuel
  induction fuel with
  | zero => intro id w w' h; cases h
  | succ fuel ih =>
    intro id w w' h
    rw [parseTreeWalk] at h
    split at h
    · cases h; rfl
    · simp only [Res.bind_eq_ok, if_true] at h
      obtain ⟨⟨m, items⟩, _, m', _, h⟩ := h
      have step : ∀ (items : List TreeItem) (v w' : BaseWalk),
          items.foldlM (walkItem X fs root true (parseTreeWalk X fs root fuel true)) v = Res.ok w' → w'.result = v.result := by
        intro items
        induction items with
        | nil => intro v w' h; cases h; rfl
        | cons i items ihi =>
          intro v w' h
          rw [List.foldlM_cons] at h
          simp only [Res.bind_eq_ok] at h
          obtain ⟨u, hu, h⟩ := h
          rw [ihi u w' h]
          rw [walkItem] at hu
          split at hu
          · cases hu; rfl
          · simp only [Res.bind_eq_ok] at hu
            obtain ⟨t, ht, hu⟩ := hu
            cases hu
            split at ht
            · simp only [if_true] at ht; cases ht; rfl
            · cases ht
            · exact ih i.id v t ht
            · cases ht
            · cases ht
      exact step items { result := w.result, basic := id :: w.basic } w' h

/-- **C113 is false**: an answer is only ever given to a client that already has the wanted commit itself, and it is empty. No client
is ever sent a missing object. -/
theorem C113_nothing_sent_false (X : Ext) (fs : MetaData.FS) (root : Bytes) (fuel : Nat) (id : Hash) (have_ : List Bytes)
    (r : List (Hash × MetaData)) (h : findCommonBase X fs root fuel id have_ = .ok r) :
    Hash.toPlainStr id ∈ have_ ∧ r = [] := by
  simp only [findCommonBase, Res.bind_eq_ok] at h
  obtain ⟨⟨c, passed, res⟩, h1, w, h2, w', h3, h4⟩ := h
  cases h4
  cases fuel with
  | zero => cases h1
  | succ fuel =>
    rw [findBaseLoop] at h1
    simp only [Res.bind_eq_ok] at h1
    obtain ⟨⟨m, c'⟩, _, h1⟩ := h1
    split at h1
    · rename_i hin
      cases h1
      refine ⟨hin, ?_⟩
      cases h3
      exact parseTree_init X fs root _ _ _ _ h2
    · cases h1

/-- An object that was written is read. -/
theorem parseMeta_written {X : Ext} (root : Bytes) {ms : List MetaData} (hs : Spec.ObjectSet X ms) {m : MetaData} (hm : m ∈ ms) :
    parseMeta X (Spec.filesAt X root ms) root m.id = .ok m := by
  unfold parseMeta Spec.filesAt
  rw [C06_loose_store_history X root ms (fun _ => none) (fun m hm => ⟨(hs.objects m hm).1, Nat.lt_trans (hs.objects m hm).2 (by decide)⟩) hs.ids m hm]
  rfl

theorem parseCommit_written {X : Ext} (root : Bytes) {ms : List MetaData} (hs : Spec.ObjectSet X ms) {m : MetaData} (hm : m ∈ ms) {c : Commit} (hc : Commit.decode m.data = .ok c) :
    Commit.parseFromFile X (Spec.filesAt X root ms) root m.id = .ok (m, c) := by
  simp [Commit.parseFromFile, parseMeta_written root hs hm, hc]

/-- **C113 is false**: whatever has been written to the object directory, if the wanted commit is there and the client does not have it, computing the objects to send crashes. -/
theorem C113_crash_false (X : Ext) (root : Bytes) (ms : List MetaData) (hs : Spec.ObjectSet X ms) (fuel : Nat) (have_ : List Bytes)
    (m : MetaData) (hm : m ∈ ms) (c : Commit) (hc : Commit.decode m.data = .ok c) (hn : Hash.toPlainStr m.id ∉ have_) :
    findCommonBase X (Spec.filesAt X root ms) root (fuel + 1) m.id have_ = .panic := by
  rw [findCommonBase, findBaseLoop]
  simp [parseCommit_written root hs hm hc, hn, arcUnwrap]

/-- A commit that was not written crashes it as well. -/
theorem C113_missing_false (X : Ext) (root : Bytes) (ms : List MetaData) (id : Hash) (hid : ∀ m ∈ ms, m.id ≠ id) (fuel : Nat) (have_ : List Bytes) :
    findCommonBase X (Spec.filesAt X root ms) root (fuel + 1) id have_ = .panic := by
  have h0 : Spec.filesAt X root ms (MetaData.loosePath root id) = none :=
    written_only _ ms _ (fun m hm e => hid m hm (loosePath_injective e).symm)
  rw [findCommonBase, findBaseLoop]
  simp [Commit.parseFromFile, parseMeta, MetaData.readObjectFromFile, h0]

/-- Noting the contents of a complete directory succeeds. -/
theorem parseTree_plain {X : Ext} (root : Bytes) {ms : List MetaData} (hset : Spec.ObjectSet X ms) {n : Nat} {id : Hash} (hd : Spec.PlainDir ms n id) :
    ∀ w : BaseWalk, ∃ w', parseTreeWalk X (Spec.filesAt X root ms) root n true id w = .ok w' := by
  induction hd with
  | @mk n m items hm hdec hk hs ih =>
    have hp : Tree.parseFromFile X (Spec.filesAt X root ms) root m.id = .ok (m, items) := by
      simp [Tree.parseFromFile, parseMeta_written root hset hm, hdec]
    intro w
    rw [parseTreeWalk]
    split
    · exact ⟨_, rfl⟩
    · simp only [hp, Res.bind_ok, arcUnwrap, if_true]
      have step : ∀ (l : List TreeItem), (∀ i ∈ l, i ∈ items) → ∀ v : BaseWalk, ∃ w',
          l.foldlM (walkItem X (Spec.filesAt X root ms) root true (parseTreeWalk X (Spec.filesAt X root ms) root n true)) v = Res.ok w' := by
        intro l
        induction l with
        | nil => intro _ v; exact ⟨v, rfl⟩
        | cons i l ihl =>
          intro hl v
          have hi := hl i (by simp)
          have hr : ∀ j ∈ l, j ∈ items := fun j hj => hl j (by simp [hj])
          have hone : ∃ u, walkItem X (Spec.filesAt X root ms) root true (parseTreeWalk X (Spec.filesAt X root ms) root n true) v i = .ok u := by
            rw [walkItem]
            by_cases hb : i.id ∈ v.basic
            · rw [if_pos hb]; exact ⟨_, rfl⟩
            · rw [if_neg hb]
              rcases hk i hi with ht | ht
              · simp only [ht, if_true, Res.bind_ok]
                exact ⟨_, rfl⟩
              · obtain ⟨u, hu⟩ := ih i hi ht v
                simp only [ht, hu, Res.bind_ok]
                exact ⟨_, rfl⟩
          obtain ⟨u, hu⟩ := hone
          rw [List.foldlM_cons, hu]
          exact ihl hr u
      exact step items (fun _ h => h) _

/-- **C113**, partial: a client that already has the wanted commit is sent nothing, if the commit and its directory have been written, with all sub-directories.
Missing: everybody else (`C113_crash_false`). -/
theorem C113_up_to_date_partial (X : Ext) (root : Bytes) (ms : List MetaData) (hs : Spec.ObjectSet X ms) (fuel : Nat) (have_ : List Bytes)
    (m : MetaData) (hm : m ∈ ms) (c : Commit) (hc : Commit.decode m.data = .ok c) (hn : Hash.toPlainStr m.id ∈ have_)
    (hd : Spec.PlainDir ms (fuel + 1) c.treeId) : findCommonBase X (Spec.filesAt X root ms) root (fuel + 1) m.id have_ = .ok [] := by
  obtain ⟨w, hw⟩ := parseTree_plain root hs hd { result := [], basic := [] }
  have he := parseTree_init X _ root _ _ _ _ hw
  have h1 : findBaseLoop X (Spec.filesAt X root ms) root have_ (fuel + 1) m.id [] [] = .ok (c, [], []) := by
    rw [findBaseLoop]; simp [parseCommit_written root hs hm hc, hn]
  simp only [findCommonBase, h1, Res.bind_ok, hw, List.foldlM_nil, Res.pure_eq]
  rw [he]

theorem appObjects_set : Spec.ObjectSet polyExt appObjects :=
  ⟨fun m hm => ⟨appObjects_new m hm, by
      simp only [appObjects, appThin, List.mem_append, List.mem_cons, List.not_mem_nil, or_false] at hm
      rcases hm with (rfl | rfl | rfl | rfl) | rfl <;> decide +kernel⟩,
    fun a ha b hb e => List.inj_on_of_nodup_map appObjects_ids ha hb e⟩

theorem app_plain : Spec.PlainDir appObjects 2 appCommit.treeId := by
  refine .mk (m := metaOf polyExt (.tree, encodeTree appItems)) (items := appItems) (by simp [appObjects, appThin]) appItems_decode (by decide) ?_
  intro i hi ht
  simp only [appItems, List.mem_cons, List.not_mem_nil, or_false] at hi
  rcases hi with rfl | rfl
  · cases ht
  · refine .mk (m := metaOf polyExt (.tree, encodeTree srcA)) (items := srcA) (by simp [appObjects, appThin]) srcA_decode (by decide) ?_
    intro j hj htj
    simp only [srcA, List.mem_cons, List.not_mem_nil, or_false] at hj
    subst hj
    cases htj

/-- In the object directory of the sample project: a client that has the commit gets nothing; a client that has nothing, or something else, crashes the server, and so does one that
wants something else. -/
example : findCommonBase polyExt (Spec.filesAt polyExt (ascii "objects") appObjects) (ascii "objects") 2 (polyId .commit appCommit.encode)
      [Hash.toPlainStr (polyId .commit appCommit.encode)] = .ok [] ∧
    findCommonBase polyExt (Spec.filesAt polyExt (ascii "objects") appObjects) (ascii "objects") 2 (polyId .commit appCommit.encode) [] = .panic ∧
    findCommonBase polyExt (Spec.filesAt polyExt (ascii "objects") appObjects) (ascii "objects") 2 (polyId .blob (ascii "nothing")) [] = .panic :=
  ⟨C113_up_to_date_partial polyExt _ appObjects appObjects_set 1 _ (metaOf polyExt (.commit, appCommit.encode)) (by simp [appObjects, appThin]) appCommit appCommit_decode
      (List.mem_singleton.2 rfl) app_plain,
    C113_crash_false polyExt _ appObjects appObjects_set 1 _ (metaOf polyExt (.commit, appCommit.encode)) (by simp [appObjects, appThin]) appCommit appCommit_decode (by simp),
    C113_missing_false polyExt _ appObjects _ (by decide +kernel) 1 _⟩

end Gust

import Verif.Model.Nodes
import Verif.Lemmas.ObjMap
import Verif.Base.Tactics

/-! # Building the node tree of a push -/

namespace Gust

namespace RepoNode

theorem mem_modelsAll {r : NodeRow} : ∀ {cs : List RepoNode}, r ∈ modelsAll cs ↔ ∃ c ∈ cs, r ∈ models c
  | [] => by simp [modelsAll]
  | c :: cs => by simp [modelsAll, mem_modelsAll (cs := cs)]

theorem addChild_ok {node c node' : RepoNode} (h : node.addChild c = .ok node') :
    (∀ r, r ∈ node'.models ↔ r ∈ node.models ∨ r ∈ c.models) := by
  cases node with
  | file i n m d => simp [addChild] at h
  | tree i n m d cs =>
    simp only [addChild, Res.ok.injEq] at h
    subst h
    intro r
    simp only [models, List.mem_cons, mem_modelsAll, List.mem_append, List.not_mem_nil, or_false]
    constructor
    · rintro (h | ⟨x, h | rfl, hr⟩)
      · exact .inl (.inl h)
      · exact .inl (.inr ⟨x, h, hr⟩)
      · exact .inr hr
    · rintro ((h | ⟨x, h, hr⟩) | hr)
      · exact .inl h
      · exact .inr ⟨x, .inl h, hr⟩
      · exact .inr ⟨c, .inr rfl, hr⟩

theorem setChild_mem {node child child' : RepoNode} {k : Nat} (hc : node.childAt k = some child)
    (hsub : ∀ r ∈ child.models, r ∈ child'.models) :
    (∀ r ∈ node.models, r ∈ (node.setChild k child').models) ∧ (∀ r ∈ child'.models, r ∈ (node.setChild k child').models) ∧
      (∀ r ∈ (node.setChild k child').models, r ∈ node.models ∨ r ∈ child'.models) := by
  cases node with
  | file i n m d => simp [childAt] at hc
  | tree i n m d cs =>
    simp only [childAt] at hc
    simp only [setChild, models, List.mem_cons, mem_modelsAll]
    obtain ⟨hk, hke⟩ := List.getElem?_eq_some_iff.1 hc
    have hnew : child' ∈ cs.set k child' := List.mem_iff_getElem.2 ⟨k, by simpa using hk, by simp⟩
    refine ⟨?_, ?_, ?_⟩
    · rintro r (h | ⟨x, hx, hr⟩)
      · exact .inl h
      · by_cases hxc : x = child
        · subst hxc; exact .inr ⟨child', hnew, hsub r hr⟩
        · refine .inr ⟨x, ?_, hr⟩
          obtain ⟨j, hj, e⟩ := List.mem_iff_getElem.1 hx
          refine List.mem_iff_getElem.2 ⟨j, by simpa using hj, ?_⟩
          rw [List.getElem_set_ne]
          · exact e
          · rintro rfl; exact hxc (by rw [← e, hke])
    · intro r hr
      exact .inr ⟨child', hnew, hr⟩
    · rintro r (h | ⟨x, hx, hr⟩)
      · exact .inl (.inl h)
      · rcases List.mem_or_eq_of_mem_set hx with hx | rfl
        · exact .inl (.inr ⟨x, hx, hr⟩)
        · exact .inr hr

end RepoNode

/-- A row with id and content of an object of the pack. -/
inductive RowOf (R : Repo) : NodeRow → Prop
  | tree (h : Hash) (t : TreeObj) (r : NodeRow) : R.treeMap h = some t → r.gitId = Hash.toPlainStr t.base.id → r.nodeType = ascii "tree" →
      r.data = t.base.data → RowOf R r
  | blob (h : Hash) (b : BlobObj) (r : NodeRow) : R.blobMap h = some b → r.gitId = Hash.toPlainStr b.base.id → r.nodeType = ascii "blob" →
      r.data = b.base.data → RowOf R r

/-- Lookups find the object with this id. -/
structure Repo.Faithful (R : Repo) : Prop where
  tree : ∀ h t, R.treeMap h = some t → t.base.id = h
  blob : ∀ h b, R.blobMap h = some b → b.base.id = h

/-- All items of the processed trees are processed. -/
def ClosedIds (R : Repo) (cache : List Hash) : Prop :=
  ∀ h ∈ cache, ∀ t, R.treeMap h = some t → ∀ i ∈ t.items, i.id ∈ cache

/-- The ids of the items of a tree of the pack. -/
def Repo.Child (R : Repo) (a b : Hash) : Prop := ∃ t, R.treeMap b = some t ∧ ∃ i ∈ t.items, a = i.id

/-- The pack has the object with this id and all that is below it, to a finite depth. -/
inductive Built (R : Repo) : Hash → Prop
  | tree (h : Hash) (t : TreeObj) : R.treeMap h = some t → (∀ i ∈ t.items, Built R i.id) → Built R h
  | blob (h : Hash) (b : BlobObj) : R.blobMap h = some b → Built R h

/-- What one step of the construction keeps and adds. -/
structure Grows (R : Repo) (node : RepoNode) (cache : List Hash) (node' : RepoNode) (cache' : List Hash) : Prop where
  keeps : ∀ r ∈ node.models, r ∈ node'.models
  new : ∀ r ∈ node'.models, r ∈ node.models ∨ RowOf R r
  ids : ∀ h ∈ cache, h ∈ cache'
  stored : ∀ h ∈ cache', h ∈ cache ∨ ∃ r ∈ node'.models, r.gitId = Hash.toPlainStr h
  closed : ClosedIds R cache → ClosedIds R cache'
  built : (∀ h ∈ cache, Built R h) → ∀ h ∈ cache', Built R h
  rows : (∀ h ∈ cache, Built R h) → ∀ r ∈ node'.models, r ∈ node.models ∨ ∃ h, r.gitId = Hash.toPlainStr h ∧ Built R h

theorem Grows.refl (R : Repo) (node : RepoNode) (cache : List Hash) : Grows R node cache node cache :=
  ⟨fun _ h => h, fun _ h => .inl h, fun _ h => h, fun _ h => .inl h, fun h => h, fun h => h, fun _ _ h => .inl h⟩

theorem Grows.trans {R : Repo} {n1 n2 n3 : RepoNode} {c1 c2 c3 : List Hash} (a : Grows R n1 c1 n2 c2) (b : Grows R n2 c2 n3 c3) :
    Grows R n1 c1 n3 c3 :=
  ⟨fun r h => b.keeps r (a.keeps r h),
   fun r h => (b.new r h).elim (fun h => a.new r h) .inr,
   fun h hh => b.ids h (a.ids h hh),
   fun h hh => (b.stored h hh).elim
     (fun hh => (a.stored h hh).elim .inl (fun ⟨r, hr, e⟩ => .inr ⟨r, b.keeps r hr, e⟩)) .inr,
   fun h => b.closed (a.closed h),
   fun h => b.built (a.built h),
   fun hc r h => (b.rows (a.built hc) r h).elim (fun h => a.rows hc r h) .inr⟩

/-- What a recursive call may be assumed to do. -/
def RecGrows (R : Repo) (rec : TreeObj → RepoNode → List Hash → Res (RepoNode × List Hash)) : Prop :=
  ∀ t node cache node' cache', rec t node cache = .ok (node', cache') → Grows R node cache node' cache' ∧ ∀ i ∈ t.items, i.id ∈ cache'

theorem buildItem_grows {R : Repo} (hR : R.Faithful) {rec : TreeObj → RepoNode → List Hash → Res (RepoNode × List Hash)} (hrec : RecGrows R rec)
    (hdis : ∀ h t b, R.treeMap h = some t → R.blobMap h = some b → False)
    {item : TreeItem} {node node' : RepoNode} {cache cache' : List Hash} (h : buildItem R rec item node cache = .ok (node', cache')) :
    Grows R node cache node' cache' ∧ item.id ∈ cache' := by
  unfold buildItem at h
  split at h
  · simp only [Res.bind_eq_ok, Res.unwrapOpt_eq_ok] at h
    obtain ⟨t, ht, n1, ha, i, hf, i', hi', child, hc, ⟨child', cache1⟩, hr, he⟩ := h
    simp only [Res.pure_eq, Res.ok.injEq, Prod.mk.injEq] at he
    obtain ⟨rfl, rfl⟩ := he
    have hadd := RepoNode.addChild_ok ha
    obtain ⟨hg, hit⟩ := hrec _ _ _ _ _ hr
    obtain ⟨s1, s2, s3⟩ := RepoNode.setChild_mem hc hg.keeps
    have hrow : ∃ r ∈ (RepoNode.ofTree t (some item)).models, r.gitId = Hash.toPlainStr item.id := by
      refine ⟨_, by rw [RepoNode.ofTree, RepoNode.models]; exact .head _, ?_⟩
      simp [hR.tree _ _ ht]
    have hrowOf : ∀ r ∈ (RepoNode.ofTree t (some item)).models, RowOf R r := by
      intro r hr
      simp only [RepoNode.ofTree, RepoNode.models, RepoNode.modelsAll, List.mem_cons, List.not_mem_nil, or_false] at hr
      subst hr
      exact .tree _ t _ ht rfl rfl rfl
    have hcm : ∀ r ∈ child.models, r ∈ n1.models := by
      intro r hr
      cases n1 with
      | file => simp [RepoNode.childAt] at hc
      | tree i n m d cs =>
        simp only [RepoNode.childAt] at hc
        simp only [RepoNode.models, List.mem_cons, RepoNode.mem_modelsAll]
        exact .inr ⟨child, List.mem_of_getElem? hc, hr⟩
    refine ⟨⟨?_, ?_, ?_, ?_, ?_, ?_, ?_⟩, by simp⟩
    · exact fun r hr => s1 r ((hadd r).2 (.inl hr))
    · intro r hr
      have key : ∀ r ∈ n1.models, r ∈ node.models ∨ RowOf R r := fun r hr => ((hadd r).1 hr).imp id (hrowOf r)
      rcases s3 r hr with hr | hr
      · exact key r hr
      · rcases hg.new r hr with hr | hr
        · exact key r (hcm r hr)
        · exact .inr hr
    · exact fun h hh => List.mem_cons_of_mem _ (hg.ids h hh)
    · intro h hh
      rcases List.mem_cons.1 hh with rfl | hh
      · obtain ⟨r, hr, e⟩ := hrow
        exact .inr ⟨r, s1 r ((hadd r).2 (.inr hr)), e⟩
      · rcases hg.stored h hh with hh | ⟨r, hr, e⟩
        · exact .inl hh
        · exact .inr ⟨r, s2 r hr, e⟩
    · intro hcl h hh t' ht' j hj
      rcases List.mem_cons.1 hh with rfl | hh
      · rw [ht] at ht'
        cases ht'
        exact List.mem_cons_of_mem _ (hit j hj)
      · exact List.mem_cons_of_mem _ (hg.closed hcl h hh t' ht' j hj)
    · intro hac h hh
      rcases List.mem_cons.1 hh with rfl | hh
      · exact .tree _ t ht (fun j hj => hg.built hac _ (hit j hj))
      · exact hg.built hac h hh
    · intro hac r hr
      have hself : ∀ r ∈ (RepoNode.ofTree t (some item)).models, ∃ h, r.gitId = Hash.toPlainStr h ∧ Built R h := by
        intro r hr
        simp only [RepoNode.ofTree, RepoNode.models, RepoNode.modelsAll, List.mem_cons, List.not_mem_nil, or_false] at hr
        subst hr
        exact ⟨item.id, by simp [hR.tree _ _ ht], .tree _ t ht (fun j hj => hg.built hac _ (hit j hj))⟩
      have key : ∀ r ∈ n1.models, r ∈ node.models ∨ ∃ h, r.gitId = Hash.toPlainStr h ∧ Built R h := fun r hr => ((hadd r).1 hr).imp id (hself r)
      rcases s3 r hr with hr | hr
      · exact key r hr
      · rcases hg.rows hac r hr with hr | hr
        · exact key r (hcm r hr)
        · exact .inr hr
  · simp only [Res.bind_eq_ok, Res.unwrapOpt_eq_ok] at h
    obtain ⟨b, hb, n1, ha, he⟩ := h
    simp only [Res.pure_eq, Res.ok.injEq, Prod.mk.injEq] at he
    obtain ⟨rfl, rfl⟩ := he
    have hadd := RepoNode.addChild_ok ha
    refine ⟨⟨?_, ?_, ?_, ?_, ?_, ?_, ?_⟩, by simp⟩
    · exact fun r hr => (hadd r).2 (.inl hr)
    · intro r hr
      rcases (hadd r).1 hr with hr | hr
      · exact .inl hr
      · simp only [RepoNode.ofBlob, RepoNode.models, List.mem_cons, List.not_mem_nil, or_false] at hr
        subst hr
        exact .inr (.blob _ b _ hb rfl rfl rfl)
    · exact fun h hh => List.mem_cons_of_mem _ hh
    · intro h hh
      rcases List.mem_cons.1 hh with rfl | hh
      · refine .inr ⟨_, (hadd _).2 (.inr (by simp [RepoNode.ofBlob, RepoNode.models]; rfl)), ?_⟩
        simp [hR.blob _ _ hb]
      · exact .inl hh
    · intro hcl h hh t' ht' j hj
      rcases List.mem_cons.1 hh with rfl | hh
      · exact (hdis _ _ _ ht' hb).elim
      · exact List.mem_cons_of_mem _ (hcl h hh t' ht' j hj)
    · intro hac h hh
      rcases List.mem_cons.1 hh with rfl | hh
      · exact .blob _ b hb
      · exact hac h hh
    · intro hac r hr
      rcases (hadd r).1 hr with hr | hr
      · exact .inl hr
      · simp only [RepoNode.ofBlob, RepoNode.models, List.mem_cons, List.not_mem_nil, or_false] at hr
        subst hr
        exact .inr ⟨item.id, by simp [hR.blob _ _ hb], .blob _ b hb⟩

theorem buildItems_grows {R : Repo} (hR : R.Faithful) {rec : TreeObj → RepoNode → List Hash → Res (RepoNode × List Hash)} (hrec : RecGrows R rec)
    (hdis : ∀ h t b, R.treeMap h = some t → R.blobMap h = some b → False) :
    ∀ (items : List TreeItem) (node node' : RepoNode) (cache cache' : List Hash), buildItems R rec items node cache = .ok (node', cache') →
      Grows R node cache node' cache' ∧ ∀ i ∈ items, i.id ∈ cache'
  | [], node, node', cache, cache', h => by
    simp only [buildItems, Res.ok.injEq, Prod.mk.injEq] at h
    obtain ⟨rfl, rfl⟩ := h
    exact ⟨Grows.refl R _ _, by simp⟩
  | item :: items, node, node', cache, cache', h => by
    rw [buildItems] at h
    split at h
    · rename_i hm
      obtain ⟨g, hi⟩ := buildItems_grows hR hrec hdis items _ _ _ _ h
      refine ⟨g, ?_⟩
      rintro i hi'
      rcases List.mem_cons.1 hi' with rfl | hi'
      · exact g.ids _ hm
      · exact hi i hi'
    · simp only [Res.bind_eq_ok] at h
      obtain ⟨⟨n1, c1⟩, h1, h2⟩ := h
      obtain ⟨g1, hi1⟩ := buildItem_grows hR hrec hdis h1
      obtain ⟨g2, hi2⟩ := buildItems_grows hR hrec hdis items _ _ _ _ h2
      refine ⟨g1.trans g2, ?_⟩
      intro i hi'
      rcases List.mem_cons.1 hi' with rfl | hi'
      · exact g2.ids _ hi1
      · exact hi2 i hi'

theorem buildTree_grows {R : Repo} (hR : R.Faithful) (hdis : ∀ h t b, R.treeMap h = some t → R.blobMap h = some b → False) :
    ∀ fuel, RecGrows R (buildTree R fuel)
  | 0 => by intro t node cache node' cache' h; simp [buildTree] at h
  | fuel + 1 => by
    intro t node cache node' cache' h
    exact buildItems_grows hR (buildTree_grows hR hdis fuel) hdis t.items node node' cache cache' h

/-- Ids reachable from some trees, going down through the trees of the pack. -/
inductive Below (R : Repo) (roots : List Hash) : Hash → Prop
  | root (h : Hash) : h ∈ roots → Below R roots h
  | item (h : Hash) (t : TreeObj) (i : TreeItem) : Below R roots h → R.treeMap h = some t → i ∈ t.items → Below R roots i.id

theorem buildCommits_ok {R : Repo} (hR : R.Faithful) (hdis : ∀ h t b, R.treeMap h = some t → R.blobMap h = some b → False) {fuel : Nat} :
    ∀ (cs : List CommitObj) (cache : List Hash) (rows : List NodeRow), ClosedIds R cache → buildCommits R fuel cs cache = .ok rows →
      (∀ r ∈ rows, RowOf R r) ∧
      ∀ h, Below R (cs.map (fun c => c.commit.treeId)) h → h ∈ cache ∨ ∃ r ∈ rows, r.gitId = Hash.toPlainStr h
  | [], cache, rows, hcl, h => by
    simp only [buildCommits, Res.ok.injEq] at h
    subst h
    refine ⟨by simp, ?_⟩
    intro h hb
    induction hb with
    | root h hm => cases hm
    | item h t i _ ht hi ih =>
      rcases ih with ih | ⟨r, hr, _⟩
      · exact .inl (hcl h ih t ht i hi)
      · cases hr
  | c :: cs, cache, rows, hcl, h => by
    simp only [buildCommits, Res.bind_eq_ok, Res.unwrapOpt_eq_ok] at h
    obtain ⟨t, ht, ⟨root, cache1⟩, hb, rest, hrest, he⟩ := h
    simp only [Res.pure_eq, Res.ok.injEq] at he
    subst he
    obtain ⟨g, hit⟩ := buildTree_grows hR hdis fuel _ _ _ _ _ hb
    obtain ⟨r1, r2⟩ := buildCommits_ok hR hdis cs cache1 rest (g.closed hcl) hrest
    have hroot : ∀ r ∈ (RepoNode.ofTree t none).models, RowOf R r ∧ r.gitId = Hash.toPlainStr c.commit.treeId := by
      intro r hr
      simp only [RepoNode.ofTree, RepoNode.models, RepoNode.modelsAll, List.mem_cons, List.not_mem_nil, or_false] at hr
      subst hr
      exact ⟨.tree _ t _ ht rfl rfl rfl, by simp [hR.tree _ _ ht]⟩
    have hrootrow : ∃ r ∈ root.models, r.gitId = Hash.toPlainStr c.commit.treeId := by
      refine ⟨_, g.keeps _ (by rw [RepoNode.ofTree, RepoNode.models]; exact .head _), ?_⟩
      simp [hR.tree _ _ ht]
    refine ⟨?_, ?_⟩
    · intro r hr
      rcases List.mem_append.1 hr with hr | hr
      · rcases g.new r hr with hr | hr
        · exact (hroot r hr).1
        · exact hr
      · exact r1 r hr
    · have inCache : ∀ h ∈ cache1, h ∈ cache ∨ ∃ r ∈ root.models ++ rest, r.gitId = Hash.toPlainStr h := by
        intro h hh
        rcases g.stored h hh with hh | ⟨r, hr, e⟩
        · exact .inl hh
        · exact .inr ⟨r, by simp [hr], e⟩
      have key : ∀ h, Below R ((c :: cs).map (fun c => c.commit.treeId)) h →
          h = c.commit.treeId ∨ h ∈ cache1 ∨ Below R (cs.map (fun c => c.commit.treeId)) h := by
        intro h hb
        induction hb with
        | root h hm =>
          rcases List.mem_cons.1 hm with rfl | hm
          · exact .inl rfl
          · exact .inr (.inr (.root h hm))
        | item h t' i _ ht' hi ih =>
          rcases ih with rfl | ih | ih
          · rw [ht] at ht'; cases ht'
            exact .inr (.inl (hit i hi))
          · exact .inr (.inl (g.closed hcl h ih t' ht' i hi))
          · exact .inr (.inr (.item h t' i ih ht' hi))
      intro h hb
      rcases key h hb with rfl | hh | hh
      · obtain ⟨r, hr, e⟩ := hrootrow
        exact .inr ⟨r, by simp [hr], e⟩
      · exact inCache h hh
      · rcases r2 h hh with hh | ⟨r, hr, e⟩
        · exact inCache h hh
        · exact .inr ⟨r, by simp [hr], e⟩

/-- Of trees that contain themselves nothing is built: the recursion would not end. -/
theorem buildCommits_built {R : Repo} (hR : R.Faithful) (hdis : ∀ h t b, R.treeMap h = some t → R.blobMap h = some b → False) {fuel : Nat} :
    ∀ (cs : List CommitObj) (cache : List Hash) (rows : List NodeRow), (∀ h ∈ cache, Built R h) → buildCommits R fuel cs cache = .ok rows →
      (∀ c ∈ cs, Built R c.commit.treeId) ∧ ∀ r ∈ rows, ∃ h, r.gitId = Hash.toPlainStr h ∧ Built R h
  | [], _, _, _, h => by
    simp only [buildCommits, Res.ok.injEq] at h
    subst h
    simp
  | c :: cs, cache, rows, hac, h => by
    simp only [buildCommits, Res.bind_eq_ok, Res.unwrapOpt_eq_ok] at h
    obtain ⟨t, ht, ⟨root, cache1⟩, hb, rest, hrest, he⟩ := h
    simp only [Res.pure_eq, Res.ok.injEq] at he
    subst he
    obtain ⟨g, hit⟩ := buildTree_grows hR hdis fuel _ _ _ _ _ hb
    have hself : Built R c.commit.treeId := .tree _ t ht (fun j hj => g.built hac _ (hit j hj))
    obtain ⟨r1, r2⟩ := buildCommits_built hR hdis cs cache1 rest (g.built hac) hrest
    refine ⟨?_, ?_⟩
    · intro x hx
      rcases List.mem_cons.1 hx with rfl | hx
      · exact hself
      · exact r1 x hx
    · intro r hr
      rcases List.mem_append.1 hr with hr | hr
      · rcases g.rows hac r hr with hr | hr
        · simp only [RepoNode.ofTree, RepoNode.models, RepoNode.modelsAll, List.mem_cons, List.not_mem_nil, or_false] at hr
          subst hr
          exact ⟨_, by simp [hR.tree _ _ ht], hself⟩
        · exact hr
      · exact r2 r hr

theorem Built.acc {R : Repo} (hdis : ∀ h t b, R.treeMap h = some t → R.blobMap h = some b → False) {h : Hash} (hb : Built R h) : Acc R.Child h := by
  induction hb with
  | tree h t ht _ ih =>
    constructor
    rintro y ⟨t', ht', j, hj, rfl⟩
    rw [ht] at ht'
    cases ht'
    exact ih j hj
  | blob h b hb =>
    constructor
    rintro y ⟨t', ht', _⟩
    exact (hdis _ _ _ ht' hb).elim

/-! ## Success -/

/-- A tree node whose children have none of these names. -/
def Fresh (names : List Bytes) : RepoNode → Prop
  | .file _ _ _ _ => False
  | .tree _ _ _ _ cs => ∀ c ∈ cs, c.name ∉ names

/-- Everything at or below a tree is in the pack, names are unique within each tree. -/
structure Complete (R : Repo) (roots : List Hash) : Prop where
  root : ∀ h ∈ roots, ∃ t, R.treeMap h = some t
  items : ∀ h t i, Below R roots h → R.treeMap h = some t → i ∈ t.items →
    if i.itemType = .tree then ∃ t', R.treeMap i.id = some t' else ∃ b, R.blobMap i.id = some b
  names : ∀ h t, Below R roots h → R.treeMap h = some t → (t.items.map TreeItem.filename).Nodup

theorem buildItem_fresh {R : Repo} {rec : TreeObj → RepoNode → List Hash → Res (RepoNode × List Hash)} {item : TreeItem} {node : RepoNode}
    {cache : List Hash} {names : List Bytes} (hf : Fresh (item.filename :: names) node) (hn : item.filename ∉ names)
    (hi : if item.itemType = .tree then ∃ t', R.treeMap item.id = some t' else ∃ b, R.blobMap item.id = some b)
    (hrec : ∀ t child cache, item.itemType = .tree → R.treeMap item.id = some t → Fresh (t.items.map TreeItem.filename) child → child.name = item.filename →
      ∃ child' cache', rec t child cache = .ok (child', cache') ∧ child'.name = child.name) :
    ∃ node' cache', buildItem R rec item node cache = .ok (node', cache') ∧ Fresh names node' ∧ node'.name = node.name := by
  cases node with
  | file => exact hf.elim
  | tree gi nn mm dd cs =>
    unfold buildItem
    by_cases ht : item.itemType = .tree
    · rw [if_pos ht] at hi ⊢
      obtain ⟨t, ht'⟩ := hi
      have hidx : (cs ++ [RepoNode.ofTree t (some item)]).findIdx? (fun c => c.name == item.filename) = some cs.length := by
        rw [List.findIdx?_append, List.findIdx?_eq_none_iff.2]
        · simp [RepoNode.ofTree, RepoNode.name, List.findIdx?_cons]
        · intro c hc
          have := hf c hc
          simp only [List.mem_cons, not_or] at this
          simpa using this.1
      obtain ⟨child', cache', hr, hname⟩ := hrec t (RepoNode.ofTree t (some item)) cache ht ht' (by simp [Fresh, RepoNode.ofTree]) rfl
      refine ⟨(RepoNode.tree gi nn mm dd (cs ++ [RepoNode.ofTree t (some item)])).setChild cs.length child', item.id :: cache', ?_, ?_, ?_⟩
      · rw [ht']
        simp only [Res.unwrapOpt, Res.bind_ok, RepoNode.addChild, RepoNode.findChild, hidx, RepoNode.childAt, List.getElem?_concat_length, hr]
        rfl
      · simp only [RepoNode.setChild, Fresh]
        intro c hc
        rcases List.mem_or_eq_of_mem_set hc with hc | rfl
        · rcases List.mem_append.1 hc with hc | hc
          · exact fun h => hf c hc (List.mem_cons_of_mem _ h)
          · simp at hc; subst hc
            exact hn
        · rw [hname]; exact hn
      · rfl
    · rw [if_neg ht] at hi ⊢
      obtain ⟨b, hb⟩ := hi
      refine ⟨.tree gi nn mm dd (cs ++ [RepoNode.ofBlob b (some item)]), item.id :: cache, ?_, ?_, rfl⟩
      · rw [hb]
        simp only [Res.unwrapOpt, Res.bind_ok, RepoNode.addChild]
        rfl
      · intro c hc
        rcases List.mem_append.1 hc with hc | hc
        · exact fun h => hf c hc (List.mem_cons_of_mem _ h)
        · simp at hc; subst hc
          exact hn

theorem buildItems_fresh {R : Repo} {rec : TreeObj → RepoNode → List Hash → Res (RepoNode × List Hash)} :
    ∀ (items : List TreeItem) (node : RepoNode) (cache : List Hash), Fresh (items.map TreeItem.filename) node →
      (items.map TreeItem.filename).Nodup →
      (∀ item ∈ items, if item.itemType = .tree then ∃ t', R.treeMap item.id = some t' else ∃ b, R.blobMap item.id = some b) →
      (∀ item ∈ items, ∀ t child cache, item.itemType = .tree → R.treeMap item.id = some t → Fresh (t.items.map TreeItem.filename) child →
        child.name = item.filename → ∃ child' cache', rec t child cache = .ok (child', cache') ∧ child'.name = child.name) →
      ∃ node' cache', buildItems R rec items node cache = .ok (node', cache') ∧ node'.name = node.name
  | [], node, cache, _, _, _, _ => ⟨node, cache, rfl, rfl⟩
  | item :: items, node, cache, hf, hnd, hi, hrec => by
    rw [List.map_cons, List.nodup_cons] at hnd
    rw [buildItems]
    split
    · refine buildItems_fresh items node cache ?_ hnd.2 (fun i h => hi i (by simp [h])) (fun i h => hrec i (by simp [h]))
      cases node with
      | file => exact hf.elim
      | tree => exact fun c hc h => hf c hc (by simp at h ⊢; exact .inr h)
    · obtain ⟨n1, c1, h1, h2, h3⟩ := buildItem_fresh (cache := cache) (by simpa using hf) hnd.1 (hi item (by simp)) (hrec item (by simp))
      obtain ⟨n2, c2, h4, h5⟩ := buildItems_fresh items n1 c1 h2 hnd.2 (fun i h => hi i (by simp [h])) (fun i h => hrec i (by simp [h]))
      refine ⟨n2, c2, ?_, by rw [h5, h3]⟩
      rw [h1]
      exact h4

theorem buildTree_fresh {R : Repo} {roots : List Hash} (hC : Complete R roots) (rank : Hash → Nat)
    (hrank : ∀ h t i, Below R roots h → R.treeMap h = some t → i ∈ t.items → i.itemType = .tree → rank i.id < rank h) :
    ∀ (fuel : Nat) (h : Hash) (t : TreeObj) (node : RepoNode) (cache : List Hash), rank h < fuel → Below R roots h → R.treeMap h = some t →
      Fresh (t.items.map TreeItem.filename) node →
      ∃ node' cache', buildTree R fuel t node cache = .ok (node', cache') ∧ node'.name = node.name
  | 0, _, _, _, _, hlt, _, _, _ => by omega
  | fuel + 1, h, t, node, cache, hlt, hb, ht, hf => by
    rw [buildTree]
    refine buildItems_fresh t.items node cache hf (hC.names h t hb ht) (fun i hi => hC.items h t i hb ht hi) ?_
    intro item hi t' child cache' hty ht' hf' _
    have := hrank h t item hb ht hi hty
    exact buildTree_fresh hC rank hrank fuel item.id t' child cache' (by omega) (.item h t item hb ht hi) ht' hf'

theorem Below.mono {R : Repo} {a b : List Hash} (hab : ∀ h ∈ a, h ∈ b) {h : Hash} (hb : Below R a h) : Below R b h := by
  induction hb with
  | root h hm => exact .root h (hab h hm)
  | item h t i _ ht hi ih => exact .item h t i ih ht hi

theorem buildCommits_succeeds {R : Repo} {roots : List Hash} (hC : Complete R roots) (rank : Hash → Nat)
    (hrank : ∀ h t i, Below R roots h → R.treeMap h = some t → i ∈ t.items → i.itemType = .tree → rank i.id < rank h)
    {fuel : Nat} (hfuel : ∀ h ∈ roots, rank h < fuel) :
    ∀ (cs : List CommitObj) (cache : List Hash), (∀ c ∈ cs, c.commit.treeId ∈ roots) → ∃ rows, buildCommits R fuel cs cache = .ok rows
  | [], _, _ => ⟨[], rfl⟩
  | c :: cs, cache, hcs => by
    have hc := hcs c (by simp)
    obtain ⟨t, ht⟩ := hC.root _ hc
    obtain ⟨node', cache', hb, _⟩ := buildTree_fresh hC rank hrank fuel _ t (RepoNode.ofTree t none) cache (hfuel _ hc) (.root _ hc) ht
      (by simp [Fresh, RepoNode.ofTree])
    obtain ⟨rest, hr⟩ := buildCommits_succeeds hC rank hrank hfuel cs cache' (fun c h => hcs c (by simp [h]))
    refine ⟨node'.models ++ rest, ?_⟩
    rw [buildCommits, ht]
    simp only [Res.unwrapOpt, Res.bind_ok, hb, hr]
    rfl

end Gust

import Verif.Lemmas.StoreRun

/-! # Names of stored nodes -/

namespace Gust

/-- A row with name, mode and id of an entry of some tree of the pack. -/
def EntryRow (R : Repo) (r : NodeRow) : Prop :=
  ∃ h t i, R.treeMap h = some t ∧ i ∈ t.items ∧ r.name = i.filename ∧ r.mode = i.mode ∧ r.gitId = Hash.toPlainStr i.id

/-- Only entries are added. -/
def RecNames (R : Repo) (rec : TreeObj → RepoNode → List Hash → Res (RepoNode × List Hash)) : Prop :=
  ∀ t node cache node' cache', (∃ h, R.treeMap h = some t) → rec t node cache = .ok (node', cache') →
    (∀ r ∈ node.models, r ∈ node'.models) ∧ ∀ r ∈ node'.models, r ∈ node.models ∨ EntryRow R r

theorem buildItem_names {R : Repo} (hR : R.Faithful) {rec : TreeObj → RepoNode → List Hash → Res (RepoNode × List Hash)} (hrec : RecNames R rec)
    {t : TreeObj} (ht : ∃ h, R.treeMap h = some t) {item : TreeItem} (hi : item ∈ t.items) {node node' : RepoNode} {cache cache' : List Hash}
    (h : buildItem R rec item node cache = .ok (node', cache')) :
    (∀ r ∈ node.models, r ∈ node'.models) ∧ ∀ r ∈ node'.models, r ∈ node.models ∨ EntryRow R r := by
  obtain ⟨h0, ht⟩ := ht
  unfold buildItem at h
  split at h
  · simp only [Res.bind_eq_ok, Res.unwrapOpt_eq_ok] at h
    obtain ⟨t', ht', n1, ha, i, hf, i', hi', child, hc, ⟨child', cache1⟩, hr, he⟩ := h
    simp only [Res.pure_eq, Res.ok.injEq, Prod.mk.injEq] at he
    obtain ⟨rfl, rfl⟩ := he
    have hadd := RepoNode.addChild_ok ha
    obtain ⟨hk, hn⟩ := hrec _ _ _ _ _ ⟨_, ht'⟩ hr
    obtain ⟨s1, s2, s3⟩ := RepoNode.setChild_mem hc hk
    have hrow : ∀ r ∈ (RepoNode.ofTree t' (some item)).models, EntryRow R r := by
      intro r hr
      simp only [RepoNode.ofTree, RepoNode.models, RepoNode.modelsAll, List.mem_cons, List.not_mem_nil, or_false] at hr
      subst hr
      exact ⟨h0, t, item, ht, hi, rfl, rfl, by rw [hR.tree _ _ ht']⟩
    have hcm : ∀ r ∈ child.models, r ∈ n1.models := by
      intro r hr
      cases n1 with
      | file => simp [RepoNode.childAt] at hc
      | tree i n m d cs =>
        simp only [RepoNode.childAt] at hc
        simp only [RepoNode.models, List.mem_cons, RepoNode.mem_modelsAll]
        exact .inr ⟨child, List.mem_of_getElem? hc, hr⟩
    have key : ∀ r ∈ n1.models, r ∈ node.models ∨ EntryRow R r := fun r hr => ((hadd r).1 hr).imp id (hrow r)
    refine ⟨fun r hr => s1 r ((hadd r).2 (.inl hr)), fun r hr => ?_⟩
    rcases s3 r hr with hr | hr
    · exact key r hr
    · rcases hn r hr with hr | hr
      · exact key r (hcm r hr)
      · exact .inr hr
  · simp only [Res.bind_eq_ok, Res.unwrapOpt_eq_ok] at h
    obtain ⟨b, hb, n1, ha, he⟩ := h
    simp only [Res.pure_eq, Res.ok.injEq, Prod.mk.injEq] at he
    obtain ⟨rfl, rfl⟩ := he
    have hadd := RepoNode.addChild_ok ha
    refine ⟨fun r hr => (hadd r).2 (.inl hr), fun r hr => ?_⟩
    rcases (hadd r).1 hr with hr | hr
    · exact .inl hr
    · simp only [RepoNode.ofBlob, RepoNode.models, List.mem_cons, List.not_mem_nil, or_false] at hr
      subst hr
      exact .inr ⟨h0, t, item, ht, hi, rfl, rfl, by rw [hR.blob _ _ hb]⟩

theorem buildItems_names {R : Repo} (hR : R.Faithful) {rec : TreeObj → RepoNode → List Hash → Res (RepoNode × List Hash)} (hrec : RecNames R rec)
    {t : TreeObj} (ht : ∃ h, R.treeMap h = some t) : ∀ (items : List TreeItem), (∀ i ∈ items, i ∈ t.items) → ∀ (node node' : RepoNode) (cache cache' : List Hash),
      buildItems R rec items node cache = .ok (node', cache') → (∀ r ∈ node.models, r ∈ node'.models) ∧ ∀ r ∈ node'.models, r ∈ node.models ∨ EntryRow R r
  | [], _, node, node', cache, cache', h => by
    simp only [buildItems, Res.ok.injEq, Prod.mk.injEq] at h
    obtain ⟨rfl, rfl⟩ := h
    exact ⟨fun _ h => h, fun _ h => .inl h⟩
  | item :: items, hi, node, node', cache, cache', h => by
    rw [buildItems] at h
    split at h
    · exact buildItems_names hR hrec ht items (fun i h => hi i (.tail _ h)) _ _ _ _ h
    · simp only [Res.bind_eq_ok] at h
      obtain ⟨⟨n1, c1⟩, h1, h2⟩ := h
      obtain ⟨a1, a2⟩ := buildItem_names hR hrec ht (hi item (.head _)) h1
      obtain ⟨b1, b2⟩ := buildItems_names hR hrec ht items (fun i h => hi i (.tail _ h)) _ _ _ _ h2
      exact ⟨fun r hr => b1 r (a1 r hr), fun r hr => (b2 r hr).elim (a2 r) .inr⟩

theorem buildTree_names {R : Repo} (hR : R.Faithful) : ∀ fuel, RecNames R (buildTree R fuel)
  | 0 => by intro t node cache node' cache' _ h; simp [buildTree] at h
  | fuel + 1 => by
    intro t node cache node' cache' ht h
    exact buildItems_names hR (buildTree_names hR fuel) ht t.items (fun _ h => h) node node' cache cache' h

/-- The rows of a push are roots of commits, without name, or named after entries of trees. -/
theorem buildCommits_names {R : Repo} (hR : R.Faithful) {fuel : Nat} : ∀ (cs : List CommitObj) (cache : List Hash) (rows : List NodeRow),
    buildCommits R fuel cs cache = .ok rows →
      ∀ r ∈ rows, (r.name = [] ∧ r.mode = [] ∧ ∃ c ∈ cs, r.gitId = Hash.toPlainStr c.commit.treeId) ∨ EntryRow R r
  | [], cache, rows, h => by
    simp only [buildCommits, Res.ok.injEq] at h
    subst h
    simp
  | c :: cs, cache, rows, h => by
    simp only [buildCommits, Res.bind_eq_ok, Res.unwrapOpt_eq_ok] at h
    obtain ⟨t, ht, ⟨root, cache1⟩, hb, rest, hrest, he⟩ := h
    simp only [Res.pure_eq, Res.ok.injEq] at he
    subst he
    intro r hr
    rcases List.mem_append.1 hr with hr | hr
    · rcases (buildTree_names hR fuel _ _ _ _ _ ⟨_, ht⟩ hb).2 r hr with hr | hr
      · simp only [RepoNode.ofTree, RepoNode.models, RepoNode.modelsAll, List.mem_cons, List.not_mem_nil, or_false] at hr
        subst hr
        exact .inl ⟨rfl, rfl, c, .head _, by rw [hR.tree _ _ ht]⟩
      · exact .inr hr
    · rcases buildCommits_names hR cs cache1 rest hrest r hr with ⟨h1, h2, c', hc', e⟩ | h
      · exact .inl ⟨h1, h2, c', .tail _ hc', e⟩
      · exact .inr h

/-- What a push stores, with names. -/
theorem push_names {X : Ext} {St : ObjectSource} {file : Bytes} {fuel0 : Nat} {p : Pack} (hdec : decodePack X St fuel0 file = .ok p)
    {E : SqlExt} {fuel : Nat} {path : Bytes} {db db' : Db} (hs : savePackfile E fuel p path db = (.ok (), db')) :
    ∃ rows, db'.nodes = db.nodes ++ rows ∧ (∀ x, Spec.PackReach p.result.hashObject x → ∃ n ∈ rows, n.gitId = Hash.toPlainStr x) ∧
      ∀ r ∈ rows, (r.name = [] ∧ ∃ o c, p.result.hashObject o.id = some o ∧ o.t = .commit ∧ Commit.decode o.data = .ok c ∧ r.gitId = Hash.toPlainStr c.treeId) ∨
        ∃ o items i, p.result.hashObject o.id = some o ∧ o.t = .tree ∧ decodeTree o.data = .ok items ∧ i ∈ items ∧
          r.name = i.filename ∧ r.mode = i.mode ∧ r.gitId = Hash.toPlainStr i.id := by
  obtain ⟨D, rows, db0, p1, p2, p3, rfl⟩ := savePackfile_ok hs
  have hH : D.Holds p.result := C36_each_object_once hdec (by have := E.pool_outcome p.result; rwa [p1] at this)
  obtain ⟨r1, r2⟩ := buildCommits_ok (repo_faithful hH) (repo_disjoint hH) D.commits [] rows (by intro h hh; cases hh) p2
  refine ⟨rows, by rw [(saveCommits_eq E D.commits path db0).1, (saveNodes_ok p3).1], fun x hx => ?_, fun r hr => ?_⟩
  · rcases r2 x ((repo_below hH x).2 hx) with h | h
    · cases h
    · exact h
  · rcases buildCommits_names (repo_faithful hH) D.commits [] rows p2 r hr with ⟨h1, _, co, hm, e⟩ | ⟨h, t, i, ht, hi, e1, e2, e3⟩
    · obtain ⟨q1, q2⟩ := (hH.commits co.base).1 (List.mem_map_of_mem hm)
      exact .inl ⟨h1, co.base, co.commit, q2, q1, hH.commitFields co hm, e⟩
    · obtain ⟨hm, _⟩ := (repo_tree hH h t).1 ht
      obtain ⟨q1, q2⟩ := (hH.trees t.base).1 (List.mem_map_of_mem hm)
      exact .inr ⟨t.base, t.items, i, q2, q1, hH.treeItems t hm, hi, e1, e2, e3⟩

end Gust

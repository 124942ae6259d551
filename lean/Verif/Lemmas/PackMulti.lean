import Verif.Lemmas.Decoded
import Verif.Lemmas.Pack
import Verif.Model.Decoded

/-! # Decoding with a cache that already has objects -/

namespace Gust.Spec

/-- The objects known to a pack that is read after others: theirs first, then those known from elsewhere. -/
def knownAfter (idOf : Obj → Hash) (prior : List (Nat × Obj)) (known : Hash → Option Obj) (h : Hash) : Option Obj :=
  match prior.find? (fun p => decide (idOf p.2 = h)) with
  | some p => some p.2
  | none => known h

/-- Pack files read one after the other, and all their objects with offsets (offsets of different packs may coincide). -/
inductive Packs (inflate : Bytes → Option (Bytes × Bytes)) (idOf : Obj → Hash) (known : Hash → Option Obj) :
    List (Nat × Obj) → List Bytes → List (Nat × Obj) → Prop
  | nil (prior : List (Nat × Obj)) : Packs inflate idOf known prior [] []
  | cons (prior : List (Nat × Obj)) (file : Bytes) (files : List Bytes) (es : List (Nat × Entry)) (trailer : Hash)
      (os rest : List (Nat × Obj)) : PackFile inflate file es trailer →
      Resolves idOf (knownAfter idOf prior known) [] es os → (∀ p ∈ es, p.1 < 2 ^ 32) →
      Packs inflate idOf known (prior ++ os) files rest → Packs inflate idOf known prior (file :: files) (os ++ rest)

end Gust.Spec

namespace Gust

/-- Decoding one entry when the cache answers correctly for its base (if any). -/
theorem nextObject_lookup {X : Ext} {St : ObjectSource} {known : Hash → Option Spec.Obj}
    {file : Bytes} {off : Nat} {earlier : List (Nat × Spec.Obj)} {e : Spec.Entry} {o : Spec.Obj} {s' : Bytes} (c : PackCache)
    (hcode : Spec.EntryCode X.inflate (file.drop off) e s') (hden : Spec.Denotes (idOf X) known earlier off e o)
    (hbase : ∀ p ∈ earlier, p.2.1.isBase = true)
    (hofs : ∀ p ∈ earlier, c.offsetObject p.1 = some (metaOf X p.2))
    (hin : ∀ p ∈ earlier, c.hashObject (idOf X p.2) = some (metaOf X p.2))
    (hout : ∀ h t b, (∀ p ∈ earlier, idOf X p.2 ≠ h) → known h = some (t, b) → t.isBase = true ∧
      ∃ m, hashBase St c h = .ok m ∧ m.t = t ∧ m.data = b ∧ m.size = b.length)
    (hcap : o.2.length < 2 ^ 63) (hlt : off < 2 ^ 64) (fuel : Nat) :
    nextObject X St file (fuel + 1) off c =
      .ok ((metaOf X o, c.update (metaOf X o) off), file.length - s'.length) ∧ o.1.isBase = true := by
  cases hden with
  | whole k t d hk =>
    obtain ⟨h1, h2, h3, h4, _⟩ := kindOf_ofNumber hk
    cases hcode with
    | whole r _ _ _ hh _ _ hi =>
      refine ⟨?_, h4⟩
      have hsz := entryHeader_size_lt hh
      have hcap' : ¬ 2 ^ 63 ≤ d.length := by omega
      rw [nextObject, readTypeAndSize_spec hh]
      simp only [Res.unwrap_ok, Res.bind_ok, h1, h2, and_self, if_true, baseObjectAt, hcap', if_false, hi, ne_eq,
        not_true_eq_false, h3, new_metaOf X (t, d) h4, Res.pure_eq]
  | ofs dist baseOff delta base out t hoff hmem hm =>
    have hb : t.isBase = true := hbase _ hmem
    cases hcode with
    | ofs r r' _ _ _ hh ho hi =>
      refine ⟨?_, hb⟩
      have hge : ¬ off < dist := by omega
      have heq : off - dist = baseOff := by omega
      have hlook := hofs _ hmem
      simp only at hlook
      rw [nextObject, readTypeAndSize_spec hh]
      simp only [Res.unwrap_ok, Res.bind_ok, show ¬ (1 ≤ 6 ∧ 6 ≤ 4) by omega, if_false, if_true,
        C03_offset_reader_spec _ _ _ ho (by omega), hge, heq, hlook,
        applyDeltaAt_means (X := X) (base := metaOf X (t, base)) rfl hb hi hm hcap, Res.pure_eq]
      rfl
  | refIn h baseOff delta base out t hmem hid hm =>
    have hb : t.isBase = true := hbase _ hmem
    cases hcode with
    | ref r _ _ _ hh hi =>
      refine ⟨?_, hb⟩
      have hlook := hin _ hmem
      simp only [hid] at hlook
      rw [nextObject, readTypeAndSize_spec hh]
      simp only [Res.unwrap_ok, Res.bind_ok, show ¬ (1 ≤ 7 ∧ 7 ≤ 4) by omega, if_false, if_true,
        show ¬ (7 = 6) by omega, readBytes_hash, fromRow_hash, hashBase, hlook,
        applyDeltaAt_means (X := X) (base := metaOf X (t, base)) rfl hb hi hm hcap, Res.pure_eq]
      rfl
  | refOut h delta base out t hn hk hm =>
    obtain ⟨hb, m, hm1, hm2, hm3, hm4⟩ := hout _ _ _ hn hk
    cases hcode with
    | ref r _ _ _ hh hi =>
      refine ⟨?_, hb⟩
      subst hm2 hm3
      rw [nextObject, readTypeAndSize_spec hh]
      simp only [Res.unwrap_ok, Res.bind_ok, show ¬ (1 ≤ 7 ∧ 7 ≤ 4) by omega, if_false, if_true,
        show ¬ (7 = 6) by omega, readBytes_hash, fromRow_hash, hm1,
        applyDeltaAt_means (X := X) (base := m) hm4 hb hi hm hcap, Res.pure_eq]

/-! ## Several packs -/

theorem lastWith_append {α : Type} (p : α → Bool) (a b : List α) :
    Spec.lastWith p (a ++ b) = (Spec.lastWith p b).or (Spec.lastWith p a) := by
  unfold Spec.lastWith
  rw [List.reverse_append, List.find?_append]

/-- The objects of the pack being read hide objects of earlier packs at the same offsets. -/
theorem cacheOf_own_offset {X : Ext} {prior cur : List (Nat × Spec.Obj)} (hc : Spec.NoCollision (idOf X) (prior ++ cur))
    (ho : cur.Pairwise (fun a b => a.1 < b.1)) : ∀ p ∈ cur, (cacheOf X (prior ++ cur)).offsetObject p.1 = some (metaOf X p.2) := by
  intro p hp
  rw [cacheOf, PackCache.offsetObject_run _ (cacheOf_hist_ids hc), List.map_append, lastWith_append]
  obtain ⟨b, hb⟩ := PackCache.lastWith_exists (p := fun q : MetaData × Nat => decide (q.2 = p.1))
    (List.mem_map.2 ⟨p, hp, rfl⟩ : (metaOf X p.2, p.1) ∈ cur.map (fun p => (metaOf X p.2, p.1))) (by simp)
  rw [hb]
  obtain ⟨h3, h4⟩ := PackCache.lastWith_some hb
  obtain ⟨q, hq, rfl⟩ := List.mem_map.1 h3
  simp only [decide_eq_true_eq] at h4
  simp only [Option.some_or, Option.map_some, offsets_inj ho q hq p hp h4]

theorem decodeWithCacheLoop_entries {X : Ext} {St : ObjectSource} {known : Hash → Option Spec.Obj} (hst : Supplies St known)
    {file : Bytes} (fuel : Nat) {prior : List (Nat × Spec.Obj)} (hpb : ∀ p ∈ prior, p.2.1.isBase = true)
    {off : Nat} {s : Bytes} {es : List (Nat × Spec.Entry)} {rest : Bytes}
    (hent : Spec.Entries X.inflate off s es rest) : ∀ {earlier os : List (Nat × Spec.Obj)} {pre : Bytes},
    file = pre ++ s → off = pre.length → Spec.Resolves (idOf X) (Spec.knownAfter (idOf X) prior known) earlier es os →
    Spec.NoCollision (idOf X) (prior ++ earlier ++ os) → (∀ p ∈ earlier, p.2.1.isBase = true) →
    earlier.Pairwise (fun a b => a.1 < b.1) → (∀ p ∈ earlier, p.1 < off) →
    (∀ p ∈ os, p.2.2.length < 2 ^ 63) → (∀ p ∈ es, p.1 < 2 ^ 32) →
    decodeWithCacheLoop X St file (fuel + 1) es.length off (cacheOf X (prior ++ earlier)) =
      .ok (cacheOf X (prior ++ earlier ++ os), file.length - rest.length) ∧ ∀ p ∈ os, p.2.1.isBase = true := by
  induction hent with
  | nil off s =>
    intro earlier os pre hf ho hr _ _ _ _ _ _
    cases hr
    subst hf ho
    simp [decodeWithCacheLoop]
  | cons off s s' rest e es hc hes ih =>
    intro earlier os pre hf ho hr hcol hbase hpw hlt hcap hoffs
    cases hr with
    | cons _ _ _ _ o os hd hrest =>
      have hoff32 := hoffs _ List.mem_cons_self
      simp only at hoff32
      have hdrop : file.drop off = s := drop_of_split hf ho
      have hcol1 : Spec.NoCollision (idOf X) (prior ++ earlier) := fun a ha b hb =>
        hcol a (List.mem_append_left _ ha) b (List.mem_append_left _ hb)
      obtain ⟨hstep, hob⟩ := nextObject_lookup (X := X) (St := St) (cacheOf X (prior ++ earlier)) (by rw [hdrop]; exact hc) hd hbase
        (cacheOf_own_offset hcol1 hpw)
        (fun p hp => (cacheOf_hashObject hcol1 _ _).2 ⟨p, List.mem_append_right _ hp, rfl, rfl⟩)
        (by
          intro h t b hn hk
          unfold Spec.knownAfter at hk
          cases hfd : prior.find? (fun p => decide (idOf X p.2 = h)) with
          | some p =>
            rw [hfd] at hk
            simp only [Option.some.injEq] at hk
            have hp := List.mem_of_find?_eq_some hfd
            have hid := List.find?_some hfd
            simp only [decide_eq_true_eq] at hid
            have hl := (cacheOf_hashObject hcol1 h (metaOf X p.2)).2 ⟨p, List.mem_append_left _ hp, hid, rfl⟩
            refine ⟨?_, metaOf X p.2, ?_, ?_, ?_, ?_⟩
            · have := hpb p hp; rw [hk] at this; exact this
            · rw [hashBase, hl]
            · rw [hk]; rfl
            · rw [hk]; rfl
            · rw [hk]; rfl
          | none =>
            rw [hfd] at hk
            obtain ⟨hb, m, hm1, hm2, hm3, hm4⟩ := hst _ _ _ hk
            refine ⟨hb, m, ?_, hm2, hm3, hm4⟩
            have hl := cacheOf_hashObject_none (X := X) (os := prior ++ earlier) h (by
              intro p hp
              rcases List.mem_append.1 hp with hp | hp
              · rw [List.find?_eq_none] at hfd
                have := hfd p hp
                simpa using this
              · exact hn p hp)
            rw [hashBase, hl, hm1]
            rfl)
        (hcap _ List.mem_cons_self) (by omega) fuel
      obtain ⟨z, hz, hs, _⟩ := entryCode_prefix hc
      have hzpos : 0 < z.length := List.length_pos_iff.2 hz
      have hpos : file.length - s'.length = off + (s.length - s'.length) := by
        subst hf ho hs
        simp only [List.length_append]
        omega
      have := @ih (earlier ++ [(off, o)]) os (pre ++ z) (by rw [hf, hs, List.append_assoc])
        (by rw [hs, ho]; simp only [List.length_append]; omega) hrest
        (by
          have e2 : prior ++ (earlier ++ [(off, o)]) ++ os = prior ++ earlier ++ (off, o) :: os := by simp
          rw [e2]; exact hcol)
        (by
          intro p hp
          rcases List.mem_append.1 hp with hp | hp
          · exact hbase p hp
          · rw [List.mem_singleton.1 hp]; exact hob)
        (by
          rw [List.pairwise_append]
          refine ⟨hpw, by simp, ?_⟩
          intro a ha b hb
          rw [List.mem_singleton.1 hb]
          exact hlt a ha)
        (by
          intro p hp
          rw [hs]
          simp only [List.length_append]
          rcases List.mem_append.1 hp with hp | hp
          · have := hlt p hp; omega
          · rw [List.mem_singleton.1 hp]; simp only; omega)
        (fun p hp => hcap p (List.mem_cons_of_mem _ hp)) (fun p hp => hoffs p (List.mem_cons_of_mem _ hp))
      rw [← List.append_assoc, cacheOf_snoc] at this
      refine ⟨?_, List.forall_mem_cons.2 ⟨hob, this.2⟩⟩
      simp only [List.length_cons, decodeWithCacheLoop, hstep, Res.unwrap_ok, Res.bind_ok, show ¬ 2 ^ 32 ≤ off by omega,
        if_false, hpos, this.1]
      simp

/-! ## Random access -/

/-- Not a delta against an id. -/
def _root_.Gust.Spec.Entry.noRef : Spec.Entry → Prop
  | .ref _ _ => False
  | _ => True

/-- The `i`-th entry stands at its offset and denotes the `i`-th object given the earlier ones. -/
theorem entry_at {X : Ext} {known : Hash → Option Spec.Obj} {file : Bytes} {off : Nat} {s : Bytes}
    {es : List (Nat × Spec.Entry)} {rest : Bytes} (hent : Spec.Entries X.inflate off s es rest) :
    ∀ {earlier os : List (Nat × Spec.Obj)} {pre : Bytes}, file = pre ++ s → off = pre.length →
    Spec.Resolves (idOf X) known earlier es os → ∀ (i o : Nat) (e : Spec.Entry), es[i]? = some (o, e) →
    ∃ s' ob, Spec.EntryCode X.inflate (file.drop o) e s' ∧ os[i]? = some (o, ob) ∧
      Spec.Denotes (idOf X) known (earlier ++ os.take i) o e ob := by
  induction hent with
  | nil off s => intro earlier os pre _ _ _ i o e h; simp at h
  | cons off s s' rest e es hc hes ih =>
    intro earlier os pre hf ho hr i o e' hi
    cases hr with
    | cons _ _ _ _ ob os hd hrest =>
      cases i with
      | zero =>
        simp only [List.getElem?_cons_zero, Option.some.injEq, Prod.mk.injEq] at hi
        obtain ⟨rfl, rfl⟩ := hi
        refine ⟨s', ob, ?_, rfl, by simpa using hd⟩
        rw [drop_of_split hf ho]
        exact hc
      | succ i =>
        simp only [List.getElem?_cons_succ] at hi
        obtain ⟨z, hz, hs, _⟩ := entryCode_prefix hc
        obtain ⟨s2, ob2, h1, h2, h3⟩ := @ih (earlier ++ [(off, ob)]) os (pre ++ z) (by rw [hf, hs, List.append_assoc])
          (by rw [hs, ho]; simp only [List.length_append]; omega) hrest i o e' hi
        refine ⟨s2, ob2, h1, by simpa using h2, ?_⟩
        simpa using h3

theorem noCollision_subset {X : Ext} {a b : List (Nat × Spec.Obj)} (h : Spec.NoCollision (idOf X) b) (hs : ∀ p ∈ a, p ∈ b) :
    Spec.NoCollision (idOf X) a := fun x hx y hy => h x (hs x hx) y (hs y hy)

theorem cacheOf_offsetObject_mem {X : Ext} {os : List (Nat × Spec.Obj)} (hc : Spec.NoCollision (idOf X) os)
    {off : Nat} {m : MetaData} (e : (cacheOf X os).offsetObject off = some m) : ∃ p ∈ os, p.1 = off ∧ metaOf X p.2 = m := by
  rw [cacheOf, PackCache.offsetObject_run _ (cacheOf_hist_ids hc)] at e
  obtain ⟨a, ha, rfl⟩ := Option.map_eq_some_iff.1 e
  obtain ⟨h1, h2⟩ := PackCache.lastWith_some ha
  obtain ⟨p, hp, rfl⟩ := List.mem_map.1 h1
  exact ⟨p, hp, by simpa using h2, rfl⟩

/-- An entry whose base (at an offset) is not in the cache: the base is decoded first. -/
theorem nextObject_ofs_rec {X : Ext} {St : ObjectSource} {file : Bytes} {off dist baseOff : Nat} {delta base out s' : Bytes}
    {t : ObjectType} {c c1 : PackCache} {p : Nat} {fuel : Nat}
    (hcode : Spec.EntryCode X.inflate (file.drop off) (.ofs dist delta) s') (hoff : baseOff + dist = off) (hb : t.isBase = true)
    (hm : Spec.DeltaMeans base delta out) (hcap : out.length < 2 ^ 63) (hlt : off < 2 ^ 64)
    (hnone : c.offsetObject baseOff = none) (hrec : nextObject X St file fuel baseOff c = .ok ((metaOf X (t, base), c1), p)) :
    nextObject X St file (fuel + 1) off c =
      .ok ((metaOf X (t, out), c1.update (metaOf X (t, out)) off), file.length - s'.length) := by
  cases hcode with
  | ofs r r' _ _ _ hh ho hi =>
    have hge : ¬ off < dist := by omega
    have heq : off - dist = baseOff := by omega
    rw [nextObject, readTypeAndSize_spec hh]
    simp only [Res.unwrap_ok, Res.bind_ok, show ¬ (1 ≤ 6 ∧ 6 ≤ 4) by omega, if_false, if_true,
      C03_offset_reader_spec _ _ _ ho (by omega), hge, heq, hnone, hrec,
      applyDeltaAt_means (X := X) (base := metaOf X (t, base)) rfl hb hi hm hcap, Res.pure_eq]
    rfl

/-- Any entry of a pack without references by id can be decoded on its own, whichever other entries were decoded before. -/
theorem nextObject_random {X : Ext} {St : ObjectSource} {known : Hash → Option Spec.Obj} {file : Bytes}
    {es : List (Nat × Spec.Entry)} {os : List (Nat × Spec.Obj)}
    (hat : ∀ (i o : Nat) (e : Spec.Entry), es[i]? = some (o, e) →
      ∃ s' ob, Spec.EntryCode X.inflate (file.drop o) e s' ∧ os[i]? = some (o, ob) ∧
        Spec.Denotes (idOf X) known (os.take i) o e ob)
    (hlen : os.length = es.length) (hfst : os.map Prod.fst = es.map Prod.fst)
    (hpw : os.Pairwise (fun a b => a.1 < b.1)) (hbase : ∀ p ∈ os, p.2.1.isBase = true)
    (hcol : Spec.NoCollision (idOf X) os) (hcap : ∀ p ∈ os, p.2.2.length < 2 ^ 63) (h32 : ∀ p ∈ es, p.1 < 2 ^ 32)
    (hnr : ∀ p ∈ es, p.2.noRef) : ∀ (fuel i off : Nat) (ob : Spec.Obj), os[i]? = some (off, ob) → i < fuel →
    ∀ H : List (Nat × Spec.Obj), (∀ p ∈ H, p ∈ os) →
      ∃ H' pos, (∀ p ∈ H', p ∈ os) ∧ (∀ p ∈ H, p ∈ H') ∧ (off, ob) ∈ H' ∧
        nextObject X St file fuel off (cacheOf X H) = .ok ((metaOf X ob, cacheOf X H'), pos) := by
  intro fuel
  induction fuel with
  | zero => intro i off ob _ h; omega
  | succ fuel ih =>
    intro i off ob hi hlt H hH
    have hmem : (off, ob) ∈ os := List.mem_of_getElem? hi
    have hil : i < es.length := by
      rw [← hlen]
      by_contra hn
      rw [List.getElem?_eq_none (by omega)] at hi
      cases hi
    obtain ⟨⟨o', e⟩, he⟩ : ∃ p, es[i]? = some p := ⟨es[i], List.getElem?_eq_getElem hil⟩
    obtain ⟨s', ob', hcode, hob, hden⟩ := hat i o' e he
    rw [hi] at hob
    simp only [Option.some.injEq, Prod.mk.injEq] at hob
    obtain ⟨rfl, rfl⟩ := hob
    have h32' := h32 _ (List.mem_of_getElem? he)
    simp only at h32'
    have hcapo := hcap _ hmem
    have hobb := hbase _ hmem
    have add : ∀ (H1 : List (Nat × Spec.Obj)), (∀ p ∈ H1, p ∈ os) → (∀ p ∈ H, p ∈ H1) →
        (∀ p ∈ H1 ++ [(off, ob)], p ∈ os) ∧ (∀ p ∈ H, p ∈ H1 ++ [(off, ob)]) ∧ (off, ob) ∈ H1 ++ [(off, ob)] := by
      intro H1 a b
      refine ⟨?_, fun p hp => List.mem_append_left _ (b p hp), by simp⟩
      intro p hp
      rcases List.mem_append.1 hp with hp | hp
      · exact a p hp
      · rw [List.mem_singleton.1 hp]; exact hmem
    cases hden with
    | whole k t d hk =>
      obtain ⟨h1, _⟩ := nextObject_lookup (X := X) (St := St) (known := fun _ => none) (earlier := []) (cacheOf X H) hcode
        (.whole k t d hk) (by simp) (by simp) (by simp) (by intro _ _ _ _ h; cases h) hcapo (by omega) fuel
      obtain ⟨a1, a2, a3⟩ := add H hH (fun _ h => h)
      refine ⟨H ++ [(off, (t, d))], file.length - s'.length, a1, a2, a3, ?_⟩
      rw [cacheOf_snoc]
      exact h1
    | ofs dist baseOff delta base out t hoff hmemb hm =>
      obtain ⟨j, hj⟩ := List.mem_iff_getElem?.1 hmemb
      rw [List.getElem?_take] at hj
      split at hj
      · rename_i hji
        have hmemb' : (baseOff, (t, base)) ∈ os := List.mem_of_getElem? hj
        have hbb := hbase _ hmemb'
        cases hl : (cacheOf X H).offsetObject baseOff with
        | none =>
          obtain ⟨H1, pos, a, b, _, hrec⟩ := ih j baseOff (t, base) hj (by omega) H hH
          obtain ⟨a1, a2, a3⟩ := add H1 a b
          refine ⟨H1 ++ [(off, (t, out))], file.length - s'.length, a1, a2, a3, ?_⟩
          rw [cacheOf_snoc]
          exact nextObject_ofs_rec hcode hoff hbb hm hcapo (by omega) hl hrec
        | some m =>
          have hcolH := noCollision_subset hcol hH
          obtain ⟨p, hp, h1, h2⟩ := cacheOf_offsetObject_mem hcolH hl
          have hpe : p = (baseOff, (t, base)) := offsets_inj hpw p (hH p hp) _ hmemb' h1
          subst hpe
          obtain ⟨a1, a2, a3⟩ := add H hH (fun _ h => h)
          obtain ⟨g1, _⟩ := nextObject_lookup (X := X) (St := St) (known := fun _ => none) (earlier := [(baseOff, (t, base))])
            (cacheOf X H) hcode (.ofs dist baseOff delta base out t hoff (by simp) hm)
            (by intro q hq; rw [List.mem_singleton.1 hq]; exact hbb)
            (by intro q hq; rw [List.mem_singleton.1 hq, hl, ← h2])
            (by
              intro q hq
              rw [List.mem_singleton.1 hq]
              exact (cacheOf_hashObject hcolH _ _).2 ⟨_, hp, rfl, rfl⟩)
            (by intro _ _ _ _ h; cases h) hcapo (by omega) fuel
          refine ⟨H ++ [(off, (t, out))], file.length - s'.length, a1, a2, a3, ?_⟩
          rw [cacheOf_snoc]
          exact g1
      · cases hj
    | refIn h baseOff delta base out t _ _ _ => exact absurd (hnr _ (List.mem_of_getElem? he)) id
    | refOut h delta base out t _ _ _ => exact absurd (hnr _ (List.mem_of_getElem? he)) id

end Gust

import Verif.Props.BothConfined
import Verif.Props.Nesting

/-! # C91 for the two servers together

No stored directory contains itself, whichever way the packs came. -/

namespace Gust

open Spec (nodeObj StoreReach commitsAt InRepo NestedWithin)

/-- No SHA-1 collision among the objects of all packs that were pushed, over HTTP and SSH, to whatever path. -/
def Spec.SentAgree (P : ServerExt) (h : BothHist) : Prop :=
  ∀ p q a b, Spec.SentPack P a h p → Spec.SentPack P b h q → ∀ o o', p.result.hashObject o.id = some o → q.result.hashObject o'.id = some o' → o.id = o'.id → o = o'

/-- A step that carries a pack sends it. -/
theorem sends_carries {P : ServerExt} {h : BothHist} {a file : Bytes} {v : Visit} (hs : Sends (runBoth P .empty h) a file v) : Spec.Carries h a file v := by
  cases v with
  | http r => exact .http r hs.1 hs.2
  | ssh i e =>
    cases e with
    | data ch bytes =>
      obtain ⟨rfl, p, hp, rfl, hsv⟩ := hs
      have := openFor_link P h i p hp
      rw [hsv] at this
      exact .ssh i ch this
    | _ => exact hs.elim

/-- Every row came in a pushed pack, with all that is below it. -/
theorem rows_sent (P : ServerExt) (h : BothHist) : ∀ r ∈ (runBoth P .empty h).web.db.nodes, ∃ a p, Spec.SentPack P a h p ∧
    (∃ o, p.result.hashObject o.id = some o ∧ o = metaOf P.X (nodeObj r) ∧ r.gitId = Hash.toPlainStr o.id ∧
      (r.nodeType = ascii "tree" ∧ (∃ items, decodeTree r.data = .ok items) ∨ r.nodeType = ascii "blob")) ∧
    ∃ x, r.gitId = Hash.toPlainStr x ∧ PackBuilt p.result.hashObject x := by
  induction hn : h.length generalizing h with
  | zero =>
    have : h = [] := List.length_eq_zero_iff.1 hn
    subst this
    intro r hr
    cases hr
  | succ n ih =>
    have hne : h ≠ [] := by rintro rfl; cases hn
    obtain ⟨h', ⟨m, v⟩, rfl⟩ : ∃ h' q, h = h' ++ [q] := ⟨h.dropLast, h.getLast hne, (List.dropLast_append_getLast hne).symm⟩
    have old : ∀ r ∈ (runBoth P .empty h').web.db.nodes, ∃ a p, Spec.SentPack P a (h' ++ [(m, v)]) p ∧
        (∃ o, p.result.hashObject o.id = some o ∧ o = metaOf P.X (nodeObj r) ∧ r.gitId = Hash.toPlainStr o.id ∧
          (r.nodeType = ascii "tree" ∧ (∃ items, decodeTree r.data = .ok items) ∨ r.nodeType = ascii "blob")) ∧
        ∃ x, r.gitId = Hash.toPlainStr x ∧ PackBuilt p.result.hashObject x := by
      intro r hr
      obtain ⟨a, p, h1, rest⟩ := ih h' (by simpa using hn) r hr
      exact ⟨a, p, h1.more _, rest⟩
    rw [runBoth_concat]
    rcases both_effect P m (runBoth P .empty h') v with e | ⟨a, _, he⟩
    · rw [e]
      exact old
    · have key : ∀ file p, Sends (runBoth P .empty h') a file v → decodePack P.X (getHashObject P.X m.sql (runBoth P .empty h').web.db) m.fuel file = .ok p →
          ∀ r ∈ (savePackfile m.sql m.fuel p a (runBoth P .empty h').web.db).2.nodes, ∃ a p, Spec.SentPack P a (h' ++ [(m, v)]) p ∧
            (∃ o, p.result.hashObject o.id = some o ∧ o = metaOf P.X (nodeObj r) ∧ r.gitId = Hash.toPlainStr o.id ∧
              (r.nodeType = ascii "tree" ∧ (∃ items, decodeTree r.data = .ok items) ∨ r.nodeType = ascii "blob")) ∧
            ∃ x, r.gitId = Hash.toPlainStr x ∧ PackBuilt p.result.hashObject x := by
        intro file p hs hd r hr
        rcases push_built hd m.sql m.fuel a (runBoth P .empty h').web.db r hr with g | g
        · exact old r g
        · by_cases ho : r ∈ (runBoth P .empty h').web.db.nodes
          · exact old r ho
          · obtain ⟨rows, h1, h2, _⟩ := push_effect hd m.sql m.fuel a (runBoth P .empty h').web.db
            rw [h1] at hr
            rcases List.mem_append.1 hr with hr | hr
            · exact absurd hr ho
            · exact ⟨a, p, ⟨h', m, v, [], a, file, rfl, sends_carries hs, rfl, hd⟩, h2 r hr, g⟩
      generalize (bothStep P m (runBoth P .empty h') v).web.db = db' at he
      cases he with
      | same => exact old
      | head =>
        rw [(getHead_only P.X m.sql a (runBoth P .empty h').web.db).1]
        exact old
      | push file p hs hd => exact key file p hs hd
      | pushRef file p cmd hs hd =>
        rw [(handleRefs_only m.sql cmd a (savePackfile m.sql m.fuel p a (runBoth P .empty h').web.db).2).1]
        exact key file p hs hd

/-- **C91** After any history of HTTP requests and SSH messages, whatever was pushed either way to whatever paths, and whether the pushes succeeded or failed half-way: no stored directory contains
itself, and directories are not nested deeper than there are rows. -/
theorem C91_no_cycles_both (P : ServerExt) (h : BothHist) (hag : Spec.SentAgree P h) (t : Hash) :
    ¬ Spec.ContainsItself (runBoth P .empty h).web.db.nodes t ∧ NestedWithin (runBoth P .empty h).web.db.nodes ((runBoth P .empty h).web.db.nodes.length + 1) t := by
  have hr := rows_sent P h
  have hac : Acc (NodeChild (runBoth P .empty h).web.db.nodes) t := by
    by_cases ht : ∃ n ∈ (runBoth P .empty h).web.db.nodes, n.gitId = Hash.toPlainStr t
    · obtain ⟨n, hn, e⟩ := ht
      obtain ⟨a, p, h1, _, x, e2, h3⟩ := hr n hn
      have ex : x = t := Hash.toPlainStr_injective (by rw [← e2, e])
      subst ex
      refine acc_of_built (X := P.X) (fun o ho m hm em => ?_) h3
      obtain ⟨b, q, g1, ⟨o', g2, g3, g4, _⟩, _⟩ := hr m hm
      rw [← g3]
      exact hag p q a b h1 g1 o o' ho g2 (Hash.toPlainStr_injective (by rw [← em, g4]))
    · constructor
      rintro y ⟨n, hn, e1, _⟩
      exact absurd ⟨n, hn, e1⟩ ht
  refine ⟨not_containsItself hac, nested_of_acyclic _ _ hac (Nat.lt_succ_of_le ?_)⟩
  have h1 : ((runBoth P .empty h).web.db.nodes.map NodeRow.gitId).toFinset.card ≤ (runBoth P .empty h).web.db.nodes.length := by
    have := List.toFinset_card_le ((runBoth P .empty h).web.db.nodes.map NodeRow.gitId)
    rwa [List.length_map] at this
  exact Nat.le_trans (Finset.card_le_card (below_subset _ _)) h1

/-- **C91** Therefore every fetch ends, over HTTP or SSH, once the stack has room for two more calls than there are rows: the storage code comes back with a pack, an error or a panic. -/
theorem C91_fetch_ends_both (P : ServerExt) (hfold : ∀ a b : Hash, P.D.fold (Hash.toPlainStr a) = P.D.fold (Hash.toPlainStr b) → a = b)
    (h : BothHist) (hag : Spec.SentAgree P h) (E : SqlExt) (hE : E.fold = P.D.fold) (fuel : Nat) (hfuel : (runBoth P .empty h).web.db.nodes.length + 2 ≤ fuel)
    (path : Bytes) (want have_ : List Bytes) :
    (getFullPack P.X E fuel (runBoth P .empty h).web.db path).halts ∧ (getIncPack P.X E fuel (runBoth P .empty h).web.db path want have_).halts := by
  have hid : ∀ n ∈ (runBoth P .empty h).web.db.nodes, ∃ x, n.gitId = Hash.toPlainStr x := by
    intro n hn
    obtain ⟨_, _, _, _, x, e, _⟩ := rows_sent P h n hn
    exact ⟨x, e⟩
  obtain ⟨f, rfl⟩ : ∃ f, fuel = f + 1 := ⟨fuel - 1, by omega⟩
  rw [← hE] at hfold
  have hn : ∀ t, NestedWithin (runBoth P .empty h).web.db.nodes f t := fun t => ((C91_no_cycles_both P h hag t).2).mono (by omega)
  exact ⟨getFullPack_halts hid hfold hn path, getIncPack_halts hid hfold hn path want have_⟩

end Gust

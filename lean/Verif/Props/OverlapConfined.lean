import Verif.Props.FetchOverlap
import Verif.Props.Confined
import Verif.Props.FetchOverlapExamples

/-! # C116: requests that overlap in time

The handlers of HTTP and SSH send the same statements (`Model/Concurrent.lean`), so the tasks here may have come over either. -/

namespace Gust

open Spec (commitsAt InRepo)

/-- The parts of a reply to a fetch during which other requests were worked on. -/
theorem httpUploadPackL_parts {X : Ext} {T : FetchTimes} {fuel : Nat} {path : Bytes} {ord : List Bytes → List Bytes} (hord : ∀ l x, x ∈ ord l ↔ x ∈ l) {cut : Bytes → List Bytes}
    {body out : Bytes} (h : httpUploadPackL X T fuel path ord cut body = .ok out) :
    ∃ (lines : List Bytes) (caps : List Capability) (file : Bytes), out = lines.flatMap (fun l => hex4 (l.length + 4) ++ l) ++ sendPack caps (cut file) ∧
      (∀ l ∈ lines, Spec.AckLine body l) ∧ (file = [] ∨ getFullPackL X T.pack fuel path = .ok file ∨ ∃ w v, getIncPackL X T.pack fuel path w v = .ok file) := by
  have last : Spec.AckLine body (ascii "ACK " ++ hardCodedAck ++ ascii " \n") := .inr ⟨hardCodedAck, [], .inr rfl, .inr (.inr rfl), by decide⟩
  simp only [httpUploadPackL, Res.bind_eq_ok, Res.pure_eq, Res.ok.injEq] at h
  obtain ⟨⟨s, rest⟩, h1, ⟨file, buf⟩, h2, rfl⟩ := h
  obtain ⟨hw, hh⟩ := fetchLoop_ids body _ _ body s rest (List.infix_refl _) (by intro x hx; cases hx) (by intro x hx; cases hx) h1
  dsimp only at h2
  have pkt : ∀ l : Bytes, addPktLine [] l = [l].flatMap (fun l => hex4 (l.length + 4) ++ l) := by intro l; simp [addPktLine]
  unfold fetchAnswer2 at h2
  split at h2
  · simp only [Res.bind_eq_ok, Res.pure_eq, Res.unwrap_eq_ok, Res.ok.injEq, Prod.mk.injEq] at h2
    obtain ⟨f, h2, rfl, rfl⟩ := h2
    exact ⟨[ascii "NAK\n"], s.caps, f, by dsimp only; rw [pkt], by intro l hl; rw [List.mem_singleton.1 hl]; exact .inl rfl, .inr (.inl h2)⟩
  · split at h2
    · simp only [Res.bind_eq_ok, Res.pure_eq, Res.unwrap_eq_ok, Res.ok.injEq, Prod.mk.injEq] at h2
      obtain ⟨f, h2, rfl, rfl⟩ := h2
      refine ⟨haveAcks (T.store X T.haves fuel path) (ord s.have_) ++ wantAcks (T.store X T.wants fuel path) (decide (Capability.noDone ∈ s.caps)) (ord s.want) ++
        [ascii "ACK " ++ hardCodedAck ++ ascii " \n"], s.caps, f, ?_, ?_, .inr (.inr ⟨_, _, h2⟩)⟩
      · rw [foldl_pkts, foldl_pkts, addPktLine]
        simp
      · intro l hl
        rcases List.mem_append.1 hl with hl | hl
        · rcases List.mem_append.1 hl with hl | hl
          · exact (acks_ok (fun x hx => hh x ((hord _ x).1 hx))).1 l hl
          · exact (acks_ok (fun x hx => hw x ((hord _ x).1 hx))).2 _ l hl
        · rw [List.mem_singleton.1 hl]; exact last
    · simp only [Res.pure_eq, Res.ok.injEq, Prod.mk.injEq] at h2
      obtain ⟨rfl, rfl⟩ := h2
      exact ⟨[ascii "ACK " ++ hardCodedAck ++ ascii " \n"], s.caps, [], by dsimp only; rw [pkt], by intro l hl; rw [List.mem_singleton.1 hl]; exact last, .inl rfl⟩

/-- An object that some client sent to the path: it is in a pack pushed there. -/
def Spec.SentIn (X : Ext) (fold : Bytes → Bytes) (path : Bytes) (s : Sys) (o : Spec.Obj) : Prop :=
  ∃ e ∈ s.pushed, fold e.2.1 = fold path ∧ e.2.2.result.hashObject (idOf X o) = some (metaOf X o)

/-- **C116 (partial)** The reply to a fetch, whatever the request, that overlaps with any number of pushes and discoveries, of this and other repositories, in any interleaving, consists
of `ACK` and `NAK` lines with ids the client sent itself, then the pieces of one pack (or none); the pack contains only objects of packs whose push to that path had begun when the
first query for the pack was answered. `hR`: no request names a directory above the path. (Missing from the full claim: see `C90_confined_partial`.) -/
theorem C116_overlapping_partial (X : Ext) (fold : Bytes → Bytes) (hfold : ∀ a b : Hash, fold (Hash.toPlainStr a) = fold (Hash.toPlainStr b) → a = b)
    (R : Bytes → Prop) (W : Pack → RefCommand → Prop) (path : Bytes) (hR : ∀ a q, R a → R q → fold q = fold path → pathStartsWith q a = true → a = q)
    (first last : Sys) (T : Spec.FetchMoments) (hT : Spec.FetchDuring X fold R W first T last)
    (hu : UniqueIds X last.db) (hfit : FitsPack X last.db) (fuel : Nat)
    (ord : List Bytes → List Bytes) (hord : ∀ l x, x ∈ ord l ↔ x ∈ l) (cut : Bytes → List Bytes) (body out : Bytes)
    (hout : httpUploadPackL X T.times fuel path ord cut body = .ok out) :
    ∃ (lines : List Bytes) (caps : List Capability) (file : Bytes), out = lines.flatMap (fun l => hex4 (l.length + 4) ++ l) ++ sendPack caps (cut file) ∧
      (∀ l ∈ lines, Spec.AckLine body l) ∧ (file = [] ∨ ∃ ms, PackHas X file ms ∧ ∀ x ∈ ms, ∃ o, Spec.SentIn X fold path (T.pack 0).2 o ∧ x = metaOf X o) := by
  obtain ⟨h0, _, h2⟩ := hT.at_pack
  obtain ⟨views, hS, si0, _⟩ := incL_good X fold hfold R W path hR T.pack last hT.fold.2.1 h0 hT.pack h2 hu
  have ext := sysRun_extends (h2 0)
  have inv0 := sysRun_inv (fun E h => h) hR (sysInv_empty X fold R path) h0
  have sent : ∀ o, InRepo fold (T.pack 0).2.db path o → Spec.SentIn X fold path (T.pack 0).2 o := by
    intro o ho
    obtain ⟨e, he, hp, m, hm, rfl⟩ := (inv0.store (ext.unique hu)).2 o ho
    exact ⟨e, he, hp, hm⟩
  obtain ⟨lines, caps, file, e1, e2, e3⟩ := httpUploadPackL_parts hord hout
  refine ⟨lines, caps, file, e1, e2, ?_⟩
  have pack : ∀ (hm : HashMeta) (k : Nat) (S : Spec.Obj → Prop), (∀ o, S o → InRepo fold (T.pack 0).2.db path o) → (hm.map Prod.fst).Nodup → (∀ p, p ∈ hm ↔ ∃ o, S o ∧ p = entryOf X o) →
      packOf X (T.pack k).1 hm = .ok file → ∃ ms, PackHas X file ms ∧ ∀ x ∈ ms, ∃ o, Spec.SentIn X fold path (T.pack 0).2 o ∧ x = metaOf X o := by
    intro hm k S hin h2 h3 h4
    have hg : Good X last.db hm := good_of_entries h2 S (fun o ho => ext.stored (inRepo_stored (hin o ho))) h3
    have hne : hm ≠ [] := by
      rintro rfl
      have : (T.pack k).1.order (([] : HashMeta).map Prod.snd) = [] := ((T.pack k).1.order_perm _).eq_nil
      rw [packOf, this] at h4
      cases h4
    obtain ⟨file', f1, ms, f2, f3⟩ := packOf_has (E := (T.pack k).1) hu hfit hg hne
    rw [h4] at f1
    obtain rfl := Res.ok.inj f1
    refine ⟨ms, f2, fun m hmm => ?_⟩
    obtain ⟨p, hp, rfl⟩ := (f3 m).1 hmm
    obtain ⟨o, ho, rfl⟩ := (h3 p).1 hp
    exact ⟨o, sent o (hin o ho), rfl⟩
  rcases e3 with e3 | e3 | ⟨w, v, e3⟩
  · exact .inl e3
  · simp only [getFullPackL, Res.bind_eq_ok] at e3
    obtain ⟨⟨hm, k⟩, h1, h4⟩ := e3
    obtain ⟨g2, g3⟩ := fullObjectsL_ok (V := fun k => ((T.pack k).1, (T.pack k).2.db)) views hS si0 h1
    rw [hT.fold.2.1 0] at g3
    exact .inr (pack hm k _ (fun o ho => ho) g2 g3 h4)
  · simp only [getIncPackL, Res.bind_eq_ok] at e3
    obtain ⟨⟨hm, k⟩, h1, h4⟩ := e3
    obtain ⟨g2, g3⟩ := incObjectsL_ok (V := fun k => ((T.pack k).1, (T.pack k).2.db)) views hS si0 h1
    rw [hT.fold.2.1 0] at g3
    refine .inr (pack hm k _ (fun o ho => ?_) g2 g3 h4)
    cases ho with
    | node r c x n a _ b c' d e => exact .node r c x n a b c' d e

/-- C116: the reply to a clone of `/app`, which is not empty, has nothing of the push to `/other` that goes on at the same time. -/
example : ∃ (first last : Sys) (T : Spec.FetchMoments) (fuel : Nat) (out : Bytes), Spec.FetchDuring polyExt demoFold AppPaths OwnCommit first T last ∧
    (T.pack 1).2.tasks = [some [], some (refActs appCreate (ascii "/other"))] ∧
    httpUploadPackL polyExt T.times fuel (ascii "/app") id demoCut (doneBody cloneLines (ascii "\n") []) = .ok out ∧ (Spec.readClone out).isSome = true ∧
    ∃ (lines : List Bytes) (caps : List Capability) (file : Bytes), out = lines.flatMap (fun l => hex4 (l.length + 4) ++ l) ++ sendPack caps (demoCut file) ∧
      (file = [] ∨ ∃ ms, PackHas polyExt file ms ∧ ∀ x ∈ ms, ∃ o, Spec.SentIn polyExt demoFold (ascii "/app") (T.pack 0).2 o ∧ x = metaOf polyExt o) := by
  obtain ⟨first, last, T, r, ⟨p, _, hp, _⟩, hT, h0, h2, objs, hr, e⟩ := app_moments
  obtain ⟨out, file, ms, c1, c2, c3, c4⟩ := C108_clone_partial polyExt demoFold demoFold_hash AppPaths OwnCommit (ascii "/app") (appPaths_above _) first last T hT (app_unique objs) (app_fits objs)
    _ (Nat.le_refl _) (List.ne_nil_of_mem hr) id (fun _ _ => .rfl) demoCut demoCut_ok cloneLines (ascii "\n") [] cloneLines_ok
  obtain ⟨lines, caps, file', d1, _, d3⟩ := C116_overlapping_partial polyExt demoFold demoFold_hash AppPaths OwnCommit (ascii "/app") (appPaths_above _) first last T hT (app_unique objs)
    (app_fits objs) _ id (fun _ _ => .rfl) demoCut _ out c1
  exact ⟨first, last, T, _, out, hT, h2, c1, by rw [c2]; rfl, lines, caps, file', d1, d3⟩

end Gust

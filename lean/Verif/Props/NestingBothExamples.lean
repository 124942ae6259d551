import Verif.Props.NestingBoth
import Verif.Props.FetchBothExamples

/-! # C91 over both servers, on a concrete run -/

namespace Gust

/-- The only pack that was sent is the one sent last. -/
theorem both_sent_last {pack : Bytes} {p : Pack} (h2 : decodePack polyExt (getHashObject polyExt demoSql Db.empty) 2 pack = .ok p) {a : Bytes} {q : Pack}
    (hq : Spec.SentPack demoServer a (bothBefore ++ [(demoMoment, .ssh 0 (.data 0 pack))]) q) : q = p := by
  obtain ⟨h1, m, v, h2', repo, file, e, hb, _, hd⟩ := hq
  rcases List.eq_nil_or_concat h2' with rfl | ⟨l, x, rfl⟩
  · obtain ⟨e1, e2⟩ := List.append_inj' e rfl
    cases e2
    subst e1
    cases hb
    rw [bothBefore_db] at hd
    exact Res.ok.inj (hd.symm.trans h2)
  · rw [List.concat_eq_append, ← List.cons_append, ← List.append_assoc] at e
    obtain ⟨e1, _⟩ := List.append_inj' e rfl
    have hv : (m, v) ∈ bothBefore := by rw [e1]; simp
    exfalso
    simp only [bothBefore, List.mem_cons, List.not_mem_nil, or_false, Prod.mk.injEq] at hv
    rcases hv with ⟨_, rfl⟩ | ⟨_, rfl⟩ | ⟨_, rfl⟩ | ⟨_, rfl⟩ | ⟨_, rfl⟩
    · cases hb
    · cases hb
    · cases hb
    · cases hb
    · cases hb
      have := decodePack_magic hd
      revert this
      decide +kernel

/-- C91: after the push on the connection, directories are stored, none contains itself, and every clone and fetch ends, with whatever ids the client names. -/
example : ∃ (h' : BothHist) (db : Db), (∀ x ∈ h', ∃ i e, x.2 = .ssh i e) ∧ db = (runBoth demoServer .empty h').web.db ∧ (∃ n ∈ db.nodes, n.gitId = Hash.toPlainStr appCommit.treeId) ∧
    ¬ Spec.ContainsItself db.nodes appCommit.treeId ∧ ∀ (path : Bytes) (want have_ : List Bytes),
      (getFullPack polyExt demoSql (db.nodes.length + 2) db path).halts ∧ (getIncPack polyExt demoSql (db.nodes.length + 2) db path want have_).halts := by
  obtain ⟨pack, rep, p, h1, h2, h3, _, hp, _⟩ := both_pushed
  have hag : Spec.SentAgree demoServer (bothBefore ++ [(demoMoment, .ssh 0 (.data 0 pack))]) := by
    intro p1 p2 a b hp1 hp2 o o' ho ho' e
    rw [both_sent_last h2 hp1, e] at ho
    rw [both_sent_last h2 hp2, ho] at ho'
    exact Option.some.inj ho'
  refine ⟨_, _, ?_, rfl, ?_, (C91_no_cycles_both _ _ hag _).1, fun path want have_ => C91_fetch_ends_both _ demoFold_hash _ hag demoSql rfl _ (Nat.le_refl _) path want have_⟩
  · intro x hx
    simp only [bothBefore, List.cons_append, List.nil_append, List.mem_cons, List.not_mem_nil, or_false] at hx
    rcases hx with rfl | rfl | rfl | rfl | rfl | rfl <;> exact ⟨_, _, rfl⟩
  · obtain ⟨st', e1, e2, _⟩ := pushedAny_http appCmd_ok (by decide) (by decide) hp
    obtain ⟨p', d1, _, d3, _⟩ := C26_durable_partial demoServer.X demoMoment.sql demoMoment.fuel (ascii "/app") _ appCmd appCmd_ok _ (by decide) (by decide) pack h1 (fun _ _ => rfl) (fun _ _ => rfl) rep st' e1
    rw [bothBefore_db] at d1
    have : p' = p := Res.ok.inj (d1.symm.trans h2)
    subst this
    rw [e2]
    exact d3 _ (.commit (metaOf polyExt (.commit, appCommit.encode)) appCommit ((h3 _ _).2 ⟨by simp [appObjects, appThin], rfl⟩) rfl appCommit_decode)

end Gust

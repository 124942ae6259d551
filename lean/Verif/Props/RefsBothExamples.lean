import Verif.Props.RefsBoth
import Verif.Props.FetchBothExamples

/-! # C150 on a concrete run -/

namespace Gust

open Spec (commitsAt)

/-- The ref of the example push. -/
def bothRow : RefRow := { repoPath := ascii "/app", refName := appCmd.name ++ [0], refGitId := appCmd.new }

/-- Somebody asks for the refs of another repository, over HTTP. -/
def lookedAt : BothHist := [(demoMoment, .http (Spec.refsReq (ascii "/lib") .uploadPack))]

theorem lookedAt_route : route .get (ascii "/lib" ++ ascii "/info/refs") (some ServiceType.uploadPack.display) = .infoRefs (ascii "/lib") .uploadPack := by decide +kernel

theorem lookedAt_noPush (s : Both) : Spec.NoPush demoServer (ascii "/app") s lookedAt := by
  refine ⟨rfl, ?_, trivial⟩
  intro a ha
  rw [show route (Spec.refsReq (ascii "/lib") .uploadPack).method (Spec.refsReq (ascii "/lib") .uploadPack).path (Spec.refsReq (ascii "/lib") .uploadPack).service =
    .infoRefs (ascii "/lib") .uploadPack from lookedAt_route] at ha
  cases ha

theorem lookedAt_one : Spec.OneSpelling demoFold (ascii "/app") lookedAt := by
  intro p hp a ha e
  rw [List.mem_singleton.1 hp] at ha
  rw [show Visit.repo (.http (Spec.refsReq (ascii "/lib") .uploadPack)) = some (ascii "/lib") by decide +kernel] at ha
  cases ha
  exact absurd e (by decide +kernel)

theorem bothRow_tell {refs : List RefRow} (h : Spec.refsAt demoFold refs (ascii "/app") = [bothRow]) : Spec.Tellable demoFold refs (ascii "/app") := by
  refine ⟨by rw [h]; decide +kernel, ?_⟩
  rw [h]
  intro r hr
  rw [List.mem_singleton.1 hr]
  exact ⟨⟨by decide +kernel, by decide +kernel, by decide +kernel, by decide +kernel⟩, by decide +kernel, by decide +kernel⟩

/-- The refs after the example push, over SSH or HTTP. -/
theorem bothRow_stored {pack rep : Bytes} {h' : BothHist} (h1 : (ascii "PACK").isPrefixOf pack = true)
    (hp : Spec.PushedAny demoServer (ascii "/app") appCmd (ascii "report-status") pack rep demoMoment bothBefore h') : (runBoth demoServer .empty h').web.db.refs = [bothRow] := by
  rcases pushedAny_refs appCmd_ok (by decide +kernel) (by decide) (by decide) h1 hp rfl (fun _ _ => rfl) with ⟨_, e⟩ | ⟨e, _⟩
  · rw [e, bothBefore_db]
    rfl
  · exact absurd rfl e

/-- C150: the example project is pushed over SSH, somebody asks for another repository, and clients are shown the branch on both servers. -/
example : ∃ (h' : BothHist) (head : Bytes) (refs : List (Bytes × Bytes)), (runBoth demoServer .empty (h' ++ lookedAt)).link 1 = .ready (some { service := .uploadPack, path := ascii "/app", caps := [], commands := [] }) ∧
    Spec.ToldBoth demoServer (ascii "/app") .uploadPack demoMoment (h' ++ lookedAt) head refs ∧ head = appCmd.new ∧ refs = [(appCmd.new, ascii "refs/heads/master" ++ [0])] := by
  obtain ⟨pack, rep, p, h1, h2, h3, _, hp, _⟩ := both_pushed
  have hst := bothRow_stored h1 hp
  have hm : Spec.HasMaster demoFold (runBoth demoServer .empty (bothBefore ++ [(demoMoment, .ssh 0 (.data 0 pack))])).web.db (ascii "/app") :=
    ⟨bothRow, by rw [hst]; simp, rfl, show demoFold bothRow.refName = demoFold (ascii "refs/heads/master") by decide +kernel⟩
  have hat : Spec.refsAt demoFold (runBoth demoServer .empty (bothBefore ++ [(demoMoment, .ssh 0 (.data 0 pack))])).web.db.refs (ascii "/app") = [bothRow] := by rw [hst]; decide +kernel
  have e := runBoth_refsAt (P := demoServer) (u := ascii "/app") (by decide) (lookedAt_noPush _) lookedAt_one hm
  rw [← runBoth_append] at e
  have hat2 : Spec.refsAt demoFold (runBoth demoServer .empty (bothBefore ++ [(demoMoment, .ssh 0 (.data 0 pack))] ++ lookedAt)).web.db.refs (ascii "/app") = [bothRow] := e.trans hat
  obtain ⟨head, refs, k1, k2, k3, k4⟩ := C150_shown_partial demoServer (ascii "/app") (by decide) appCmd appCmd_ok (by decide +kernel) (ascii "report-status") (by decide) (by decide) pack h1 rep
    demoMoment demoMoment rfl rfl (fun _ _ => rfl) bothBefore _ lookedAt (.inl rfl) hp (lookedAt_noPush _) (hasMaster_refsAt e hm) (bothRow_tell hat2) .uploadPack
  rw [show Spec.refsAt demoServer.D.fold (runBoth demoServer .empty (bothBefore ++ [(demoMoment, .ssh 0 (.data 0 pack))] ++ lookedAt)).web.db.refs (ascii "/app") = [bothRow] from hat2] at k3
  have only : ∀ r ∈ (runBoth demoServer .empty (bothBefore ++ [(demoMoment, .ssh 0 (.data 0 pack))] ++ lookedAt)).web.db.refs, r.repoPath = ascii "/app" → r = bothRow := by
    intro r hr hu
    have : r ∈ Spec.refsAt demoFold (runBoth demoServer .empty (bothBefore ++ [(demoMoment, .ssh 0 (.data 0 pack))] ++ lookedAt)).web.db.refs (ascii "/app") := refsAt_mem.2 ⟨hr, by rw [hu]⟩
    rw [hat2] at this
    exact List.mem_singleton.1 this
  refine ⟨_, head, refs, ?_, k1, k4 (fun r hr hu _ => by rw [only r hr hu]; rfl) (fun r hr hu _ => by rw [only r hr hu]; rfl), List.perm_singleton.1 k3⟩
  rw [runBoth_append, runBoth_elsewhere demoServer lookedAt _ (by intro x hx e; rw [List.mem_singleton.1 hx]; simp), runBoth_append,
    runBoth_elsewhere demoServer [(demoMoment, .ssh 0 (.data 0 pack))] _ (by intro x hx e; cases List.mem_singleton.1 hx; simp), bothBefore_fetch]

/-- C150: what is shown before and after the other request is the same, and it is never the name that was pushed. -/
example : ∃ (h' : BothHist) (head : Bytes) (refs : List (Bytes × Bytes)),
    Spec.ToldBoth demoServer (ascii "/app") .receivePack demoMoment h' head refs ∧ refs.length = 1 ∧
    (∃ head' refs', Spec.ToldBoth demoServer (ascii "/app") .uploadPack demoMoment (h' ++ lookedAt) head' refs' ∧ refs.Perm refs' ∧ head = head') ∧
    ∃ head' refs', Spec.ToldBoth demoServer (ascii "/app") .uploadPack demoMoment (h' ++ lookedAt) head' refs' ∧ ∀ q ∈ refs', q.2 ≠ ascii "refs/heads/master" := by
  obtain ⟨pack, rep, p, h1, h2, h3, _, _, hp⟩ := both_pushed
  have hst := bothRow_stored h1 hp
  obtain ⟨h', hh⟩ : ∃ h', h' = bothBefore ++ [(demoMoment, .http (Spec.pushReq (ascii "/app" ++ ascii ".git") (Spec.pushBody appCmd [] (ascii "report-status") pack)))] := ⟨_, rfl⟩
  rw [← hh] at hst hp
  have hm : Spec.HasMaster demoFold (runBoth demoServer .empty h').web.db (ascii "/app") :=
    ⟨bothRow, by rw [hst]; simp, rfl, show demoFold bothRow.refName = demoFold (ascii "refs/heads/master") by decide +kernel⟩
  have hat : Spec.refsAt demoFold (runBoth demoServer .empty h').web.db.refs (ascii "/app") = [bothRow] := by rw [hst]; decide +kernel
  obtain ⟨head, head', refs, refs', k1, k2, k3, k4⟩ := C150_unaffected_partial demoServer (ascii "/app") (by decide) h' lookedAt hm (bothRow_tell hat) (lookedAt_noPush _) lookedAt_one
    .receivePack .uploadPack demoMoment demoMoment rfl rfl
  obtain ⟨head2, refs2, n1, n2⟩ := C150_name_false demoServer (ascii "/app") (by decide) appCmd appCmd_ok (by decide +kernel) (ascii "report-status") (by decide) (by decide) pack h1 rep
    demoMoment demoMoment rfl rfl (fun _ _ => rfl) bothBefore _ lookedAt (by rw [bothBefore_db]; intro r hr; cases hr) hp (lookedAt_noPush _) lookedAt_one hm (bothRow_tell hat) .uploadPack
  refine ⟨h', head, refs, k1, ?_, ⟨head', refs', k2, k3, k4 ?_⟩, head2, refs2, n1, n2⟩
  · obtain ⟨r, refs0, l1, _, _, _, l5⟩ := told_both (P := demoServer) (u := ascii "/app") (by decide) .receivePack demoMoment rfl h' hm (bothRow_tell hat)
    obtain ⟨o1, a1, a2⟩ := k1.1 [] app_clean_url (.inl rfl)
    obtain ⟨o2, b1, b2⟩ := l1.1 [] app_clean_url (.inl rfl)
    rw [a1] at b1
    cases b1
    rw [a2] at b2
    cases b2
    rw [l5.length_eq]
    show ((Spec.refsAt demoFold (runBoth demoServer .empty h').web.db.refs (ascii "/app")).map _).length = 1
    rw [hat]
    rfl
  · rw [hst]
    intro r hr r' hr' _ _ _ _
    rw [List.mem_singleton.1 hr, List.mem_singleton.1 hr']

/-- C77 and C88 after the push over SSH: the stored commit is complete, and the ref is still there after a request for another repository. -/
example : ∃ (h' : BothHist) (r : CommitRow) (c : Commit), r ∈ commitsAt demoFold (runBoth demoServer .empty h').web.db.commits (ascii "/app") ∧ Commit.decode r.data = .ok c ∧
    (∃ n ∈ (runBoth demoServer .empty h').web.db.nodes, n.gitId = Hash.toPlainStr c.treeId ∧ n.nodeType = ascii "tree") ∧
    Spec.refNames (runBoth demoServer .empty h').web.db ≠ [] ∧ Spec.refNames (runBoth demoServer .empty h').web.db <+: Spec.refNames (runBoth demoServer (runBoth demoServer .empty h') lookedAt).web.db := by
  obtain ⟨pack, rep, p, h', h1, hdec, h3, hp, hfl, hab, hopen, objs, o, ho⟩ := both_ready
  obtain ⟨r, hr⟩ : ∃ r, r ∈ commitsAt demoFold (runBoth demoServer .empty h').web.db.commits (ascii "/app") := by
    cases ho with
    | commit r hr => exact ⟨r, hr⟩
    | node r _ _ _ hr => exact ⟨r, hr⟩
  obtain ⟨c, c1, c2, _⟩ := C77_both_partial demoServer (ascii "/app") h' hfl hab (app_unique objs) r hr
  refine ⟨h', r, c, hr, c1, c2, ?_, C88_both demoServer lookedAt _⟩
  unfold Spec.refNames
  rw [bothRow_stored h1 hp]
  simp

end Gust

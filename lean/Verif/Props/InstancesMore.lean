import Verif.Props.InstancesCore
import Verif.Props.Stable
import Verif.Props.PackMulti
import Verif.Props.CutOff
import Verif.Props.Startup
import Verif.Props.RefsKept
import Verif.Props.Rounds
import Verif.Props.NestingExamples
import Verif.Props.ConcurrentExamples

/-!
Further applications of theorems to concrete values: the hypotheses are met by non-trivial values.
-/

namespace Gust

/-- C07: `commits` is no type name, `tag` is one; 5 is no type number. -/
example : ObjectType.fromString (ascii "commits") = .err .objectInfo ∧ ObjectType.fromString (ascii "tag") = .ok .tag ∧ ObjectType.ofNumber 5 = .panic := by
  refine ⟨?_, ?_, ?_⟩
  · rcases C07_name_accepts (ascii "commits") with ⟨k, t, h, _⟩ | ⟨h, _⟩
    · exact absurd h ((by decide : ∀ k : Fin 4, ascii "commits" ≠ Spec.typeName k) k)
    · exact h
  · exact ((C07_type_codes .tag).2 (by simp) (by simp)).1
  · rcases C07_number_accepts 5 with ⟨t, _, h⟩ | ⟨h, _⟩
    · exact absurd h (by cases t <;> decide)
    · exact h

/-- C09: an identity line with odd spacing, written again. -/
example : ∃ s, AuthorSign.decode (ascii "authors A\t<a> +12 +0000") = .ok s ∧ AuthorSign.decode s.encode = .ok s ∧ s.encode ≠ ascii "authors A\t<a> +12 +0000" := by
  have h : (match AuthorSign.decode (ascii "authors A\t<a> +12 +0000") with
    | .ok s => decide (s.encode ≠ ascii "authors A\t<a> +12 +0000")
    | _ => false) = true := by decide +kernel
  split at h
  · rename_i s hs
    exact ⟨s, hs, C09_stable hs, of_decide_eq_true h⟩
  · cases h

/-- C11: a tag. -/
example : ∃ g, Tag.decode (exampleTag (ascii "\nRelease\n")).encode = .ok g ∧ Tag.decode g.encode = .ok g :=
  ⟨_, C11_tag_roundtrip_partial _ (exampleTag_ok _ (utf8Valid_ascii _ (by decide))) (ascii "Release\n") (by simp only [exampleTag]; decide),
    C11_stable (C11_tag_roundtrip_partial _ (exampleTag_ok _ (utf8Valid_ascii _ (by decide))) (ascii "Release\n") (by simp only [exampleTag]; decide))⟩

/-- C10: a merge of three branches is read as a commit with the first parent three times. -/
example (a b c : Hash) : ∃ d, Commit.decode (exampleCommit [a, b, c]).encode = .ok d ∧ d.parents.length = 3 ∧ (∀ p ∈ d.parents, p = a) ∧ d.message = ascii "\nparent author fix\n" := by
  obtain ⟨d, h1, _, _, _, h2, h3, h4⟩ := C10_commit_parents_partial _ (exampleCommit_ok [a, b, c])
  exact ⟨d, h1, h3, fun p hp => Option.some.inj (h4 p hp), h2⟩

/-- C39: two packs with two objects each; the number reported is 0. -/
example : ∃ P, multiDecode demoExt (fun _ => none) 1 [foreignPack, secondPack] = .ok P ∧ P.numberOfObjects = 0 := by
  obtain ⟨P, h1, _⟩ := C39_objects_available_partial (St := fun _ => none) (fun _ _ _ e => by cases e) twoPacks twoPacks_ids (by decide) 0
  exact ⟨P, h1, C39_count_always_zero h1⟩

/-- C46: the files of two objects are inside the directory `lfs`. -/
example : ∀ oid, oid = rightOid ∨ oid = demoStore.digest (ascii "other") → ∃ tail, tail ≠ [] ∧ storePath demoStore oid = .ok (false, ascii "lfs" :: tail) := by
  intro oid h
  have ho : Spec.RouteOid oid := by
    rcases h with rfl | rfl
    · exact hexDigest_route demoStore_digest _
    · exact hexDigest_route demoStore_digest _
  obtain ⟨tail, h1, _, h2⟩ := C46_inside demoStore oid ho
  exact ⟨tail, h1, h2.trans (by rw [show components demoStore.base = (false, [ascii "lfs"]) by decide +kernel]; rfl)⟩

/-- C140: the link that is offered for an object names the address of the default configuration. -/
example : ∃ host port, Spec.Dotted host 0 0 0 0 ∧ Spec.IsDecimal port 8000 ∧
    ascii "http://0.0.0.0:8000/objects/" ++ demoStore.digest (ascii "other") = ascii "http://" ++ host ++ ascii ":" ++ port ++ ascii "/objects/" ++ demoStore.digest (ascii "other") :=
  (C140_links defaultServer .default rfl 0 0 0 0
    ⟨by decide, ascii "0", ascii "0", ascii "0", ascii "0", dec_text (by decide), dec_text (by decide), dec_text (by decide), dec_text (by decide), by decide⟩ (by decide) demoMoment .empty (batchReq (demoStore.digest (ascii "other"))) (by decide +kernel) (ascii "upload")
    [{ oid := demoStore.digest (ascii "other"), size := 5, user := [], repo := [] }] rfl _ default_batch 0 _ _ rfl rfl
    (hexDigest_route demoStore_digest _) ⟨rfl, rfl⟩ _ (.inl rfl)).2

/-- C141: an upload that is stopped behind the second step, and requests about another object: the object is offered for upload or it is there. -/
example (h2 : List LfsReq) (ho2 : Spec.Others rightOid h2) :=
  (C141_kept_partial lowerDb lowerDb_ok demoStore freshLfs (freshLfs_fresh _) [announceRight] announceRight_long rightOid (ascii "right") (hexDigest_route demoStore_digest _)
    (by decide +kernel) (by decide +kernel) (by decide +kernel) [0, 0] (by decide) h2 ho2 _ rfl).2
    (fun c hc => by
      have h : (match (downloadObject lowerDb demoStore (runLfs lowerDb demoStore freshLfs [announceRight]) rightOid).1 with | .ok _ => false | _ => true) = true := by decide +kernel
      rw [hc] at h
      cases h)

/-- C88: two connections; one of them asks for a directory of a repository with two refs. -/
example : Spec.refNames threeRefs.db <+: Spec.refNames (sshRun polyExt (.start threeRefs.db)
    [(demoMoment, 0, logIn), (demoMoment, 3, logIn), (demoMoment, 0, askFor .uploadPack 1 (ascii "/app/src")), (demoMoment, 3, askFor .receivePack 2 (ascii "/lib")),
      (demoMoment, 3, .data 2 (Spec.pushBody dropOld [] [] []))]).db :=
  C88_ssh polyExt _ (.start threeRefs.db)

/-- C88: the ref that the first push has written is there while the second push runs. -/
example : ∃ b : Sys, b.tasks[1]? ≠ some (some []) ∧ (ascii "/app", ascii "refs/heads/master") ∈ Spec.refNames b.db := by
  obtain ⟨p, a, b, h1, h2, _, _, _, h3, _, h4, _, _⟩ := app_two
  refine ⟨b, by rw [h4]; exact (fun e => nomatch e), (C88_overlapping h2).subset ?_⟩
  rw [Spec.refNames, h3]
  decide +kernel

/-- C127: a fetch in one round after a push of the example repository, with three commits that the client has. -/
example (w x y z : Hash) : ∃ pack k, ∀ fuel, k ≤ fuel → (serve demoServer { demoMoment with fuel := fuel } (runServer demoServer .empty [(demoMoment, appPush pack)])
    (Spec.fetchReq (ascii "/app" ++ ascii ".git") (Spec.roundMsg (ascii "multi_ack_detailed side-band-64k") w [] [x, y, z] ++ Spec.frame (.line (ascii "done\n"))))).1 ≠ .hang := by
  obtain ⟨pack, _⟩ := app_pushed_server
  obtain ⟨k, hk⟩ := C127_once_partial demoServer demoFold_hash [(demoMoment, appPush pack)] (one_push_agrees _ _ _ _ fun q hq => nomatch hq) demoMoment rfl
    app_clean_url (.inr rfl) (caps := ascii "multi_ack_detailed side-band-64k") (by decide) (by decide) w [] [x, y, z]
  exact ⟨pack, k, hk⟩

end Gust

import Verif.Model.Headers
import Verif.Props.RefsShown

/-! # C98: how replies are labelled -/

namespace Gust

/-- The value of a header. -/
def Spec.header (name : Bytes) (h : ReplyHead) : Option Bytes := (h.headers.find? (fun p => p.1 == name)).map Prod.snd

/-- The media types of the three replies of git's smart HTTP protocol, for a method, a path ending and a service parameter. -/
inductive Spec.GitMedia : HttpReq → Bytes → Prop
  | discover (r : HttpReq) (pre : Bytes) (t : ServiceType) (hm : r.method = .get) (hp : r.path = pre ++ ascii "/info/refs") (hs : r.service = some t.display) :
    GitMedia r (ascii "application/x-" ++ t.display ++ ascii "-advertisement")
  | fetch (r : HttpReq) (pre : Bytes) (hm : r.method = .post) (hp : r.path = pre ++ ascii "/git-upload-pack") :
    GitMedia r (ascii "application/x-git-upload-pack-result")
  | push (r : HttpReq) (pre : Bytes) (hm : r.method = .post) (hp : r.path = pre ++ ascii "/git-receive-pack") :
    GitMedia r (ascii "application/x-git-receive-pack-result")

theorem gitMedia_route {r : HttpReq} {media : Bytes} (h : Spec.GitMedia r media) :
    (okHead (route r.method r.path r.service)) = ⟨200, gitHeaders media⟩ := by
  cases h with
  | discover pre t hm hp hs =>
    have := C57_routed_partial (Spec.Endpoint.infoRefs pre t) (fun _ h => by
      obtain ⟨q, e⟩ := h
      have := congrArg (fun l : Bytes => l.reverse.take 2) e
      simp [ascii] at this)
    obtain ⟨repo, e⟩ := this
    rw [hm, hp, hs, e]
    rfl
  | fetch pre hm hp =>
    obtain ⟨repo, e⟩ := C57_routed_partial (Spec.Endpoint.uploadPack pre r.service) (fun h => by cases h)
    rw [hm, hp, e]
    rfl
  | push pre hm hp =>
    obtain ⟨repo, e⟩ := C57_routed_partial (Spec.Endpoint.receivePack pre r.service) (fun h => by cases h)
    rw [hm, hp, e]
    rfl

/-- **C98** A successful reply to a git request, for whatever repository, has status 200, the media type git asks for, and may not be cached. -/
theorem C98_labelled {P : ServerExt} {m : Moment} {s : ServerState} {r : HttpReq} {media : Bytes} (hg : Spec.GitMedia r media) {b : Payload}
    (h : (serve P m s r).1 = .reply (.ok b)) :
    ∃ head, replyHead r (serve P m s r).1 = some head ∧ head.status = 200 ∧ Spec.header (ascii "Content-Type") head = some media ∧
      Spec.header (ascii "Cache-Control") head = some (ascii "no-cache, max-age=0, must-revalidate") := by
  refine ⟨_, by rw [h]; rfl, ?_⟩
  rw [gitMedia_route hg]
  exact ⟨rfl, rfl, rfl⟩

/-- **C98** The other way round: a reply with one of these media types is a success, and the reply to a request for which git expects this type. So a
client never takes an error text, or the answer to something else, for git data. -/
theorem C98_only {P : ServerExt} {m : Moment} {s : ServerState} {r : HttpReq} {head : ReplyHead} (h : replyHead r (serve P m s r).1 = some head) {media : Bytes}
    (hc : Spec.header (ascii "Content-Type") head = some media)
    (hm : media ∈ [ascii "application/x-git-upload-pack-advertisement", ascii "application/x-git-receive-pack-advertisement",
      ascii "application/x-git-upload-pack-result", ascii "application/x-git-receive-pack-result"]) :
    Spec.GitMedia r media ∧ ∃ b, (serve P m s r).1 = .reply (.ok b) := by
  have plain : ∀ x, some (ascii "text/plain; charset=utf-8") = some x → x ∈ [ascii "application/x-git-upload-pack-advertisement",
      ascii "application/x-git-receive-pack-advertisement", ascii "application/x-git-upload-pack-result", ascii "application/x-git-receive-pack-result"] → False := by
    intro x e hx
    rw [← Option.some.inj e] at hx
    revert hx
    decide
  generalize ho : (serve P m s r).1 = o at h
  cases o with
  | hang => cases h
  | reply q =>
    cases q with
    | panic => cases h
    | status c =>
      exfalso
      simp only [replyHead] at h
      split at h
      · rw [← Option.some.inj h] at hc
        cases hc
      · rw [← Option.some.inj h] at hc
        cases hc
      · rw [← Option.some.inj h] at hc
        exact plain _ hc hm
    | ok b =>
      refine ⟨?_, b, rfl⟩
      simp only [replyHead, Option.some.injEq] at h
      subst h
      have other : ∀ x, some (ascii "application/vnd.git-lfs+json") = some x ∨ some (ascii "application/vnd.git-lfs") = some x →
          x ∈ [ascii "application/x-git-upload-pack-advertisement", ascii "application/x-git-receive-pack-advertisement",
            ascii "application/x-git-upload-pack-result", ascii "application/x-git-receive-pack-result"] → False := by
        intro x e hx
        rcases e with e | e <;> rw [← Option.some.inj e] at hx <;> revert hx <;> decide
      cases hr : route r.method r.path r.service with
      | infoRefs repo t =>
        rw [hr] at hc
        obtain ⟨Q, hQ, hq⟩ := C57_only_partial (m := r.method) (path := r.path) (s := r.service) (by
          rw [hr]; rintro (e | e | e | e) <;> cases e) (fun id => by rw [hr]; exact Route.noConfusion)
        have hc' : media = ascii "application/x-" ++ t.display ++ ascii "-advertisement" := (Option.some.inj hc).symm
        rw [hc']
        rw [hr] at hq
        generalize e1 : r.method = me at hQ
        generalize e2 : r.path = pa at hQ
        generalize e3 : r.service = se at hQ
        cases hQ with
        | infoRefs pre t' =>
          obtain ⟨_, e⟩ := hq
          cases e
          exact .discover r pre t e1 e2 e3
        | _ => first | (obtain ⟨_, e⟩ := hq; cases e; done) | (cases hq; done)
      | uploadPack repo =>
        rw [hr] at hc
        obtain ⟨Q, hQ, hq⟩ := C57_only_partial (m := r.method) (path := r.path) (s := r.service) (by
          rw [hr]; rintro (e | e | e | e) <;> cases e) (fun id => by rw [hr]; exact Route.noConfusion)
        have hc' : media = ascii "application/x-git-upload-pack-result" := (Option.some.inj hc).symm
        rw [hc']
        rw [hr] at hq
        generalize e1 : r.method = me at hQ
        generalize e2 : r.path = pa at hQ
        generalize e3 : r.service = se at hQ
        cases hQ with
        | uploadPack pre => exact .fetch r pre e1 e2
        | _ => first | (obtain ⟨_, e⟩ := hq; cases e; done) | (cases hq; done)
      | receivePack repo =>
        rw [hr] at hc
        obtain ⟨Q, hQ, hq⟩ := C57_only_partial (m := r.method) (path := r.path) (s := r.service) (by
          rw [hr]; rintro (e | e | e | e) <;> cases e) (fun id => by rw [hr]; exact Route.noConfusion)
        have hc' : media = ascii "application/x-git-receive-pack-result" := (Option.some.inj hc).symm
        rw [hc']
        rw [hr] at hq
        generalize e1 : r.method = me at hQ
        generalize e2 : r.path = pa at hQ
        generalize e3 : r.service = se at hQ
        cases hQ with
        | receivePack pre => exact .push r pre e1 e2
        | _ => first | (obtain ⟨_, e⟩ := hq; cases e; done) | (cases hq; done)
      | _ =>
        exfalso
        rw [hr] at hc
        first
          | (cases hc; done)
          | exact other _ (.inl hc) hm
          | exact other _ (.inr hc) hm

theorem foldl_addPktLine_prefix : ∀ (ls : List Bytes) (s : Bytes), s <+: ls.foldl addPktLine s
  | [], _ => List.prefix_rfl
  | l :: ls, s => (show s <+: addPktLine s l from ⟨_, (List.append_assoc ..).symm⟩).trans (foldl_addPktLine_prefix ls (addPktLine s l))

/-- **C98** The label and the data agree: the reply labelled as the ref list of a service begins with the announcement of the same service (for fetching:
`001e# service=git-upload-pack\n0000`), which is how clients tell this protocol from a plain file server. -/
theorem C98_announced {P : ServerExt} {m : Moment} {s : ServerState} {r : HttpReq} {head : ReplyHead} (h : replyHead r (serve P m s r).1 = some head)
    (t : ServiceType) (hc : Spec.header (ascii "Content-Type") head = some (ascii "application/x-" ++ t.display ++ ascii "-advertisement")) :
    ∃ rest, (serve P m s r).1 = .reply (.ok (.bytes
      ((if t = .uploadPack then ascii "001e# service=git-upload-pack\n0000" else ascii "001f# service=git-receive-pack\n0000") ++ rest))) := by
  obtain ⟨hg, b, hb⟩ := C98_only h hc (by cases t <;> decide)
  have he : okHead (route r.method r.path r.service) = ⟨200, gitHeaders (ascii "application/x-" ++ t.display ++ ascii "-advertisement")⟩ := gitMedia_route hg
  obtain ⟨repo, hr⟩ : ∃ repo, route r.method r.path r.service = .infoRefs repo t := by
    replace he := congrArg (fun h : ReplyHead => h.headers.map Prod.snd) he
    cases hq : route r.method r.path r.service with
    | infoRefs repo t' =>
      rw [hq] at he
      simp only [okHead, gitHeaders, List.map] at he
      refine ⟨repo, ?_⟩
      cases t <;> cases t' <;> first | rfl | (exfalso; revert he; decide)
    | _ =>
      exfalso
      rw [hq] at he
      simp only [okHead, gitHeaders, List.map] at he
      revert he
      cases t <;> decide
  have e : (serve P m s r).1 = (advertise P.X m.sql .http t s.db repo).1.outcome .bytes := by
    unfold serve
    rw [hr]
  rw [e] at hb ⊢
  unfold advertise at hb ⊢
  rcases hh : getHeadObjectId P.X m.sql s.db repo with ⟨a, db⟩
  rw [hh] at hb
  cases a with
  | ok id =>
    simp only [Res.outcome, gitInfoRefs, buildSmartReply, if_true]
    obtain ⟨x, hx⟩ := foldl_addPktLine_prefix (headLine t id :: (getRefObjectId m.sql db repo).map (fun p => p.1 ++ [0x20] ++ p.2 ++ [0x0a]))
       (addPktLine [] (ascii "# service=" ++ t.display ++ ascii "\n") ++ flushPkt)
    refine ⟨x ++ flushPkt, ?_⟩
    rw [← hx, List.append_assoc]
    congr 4
    cases t <;> decide +kernel
  | _ => cases hb

/-- How the successful replies of the LFS API are labelled: the status, and the media type if there is one. -/
inductive Spec.LfsMedia : HttpReq → Nat → Option Bytes → Prop
  | list (r : HttpReq) (pre : Bytes) (hm : r.method = .get) (hp : r.path = pre ++ ascii "/locks") (hn : ¬ ascii "/objects/locks" <:+ r.path) :
    LfsMedia r 200 (some (ascii "application/vnd.git-lfs+json"))
  | verify (r : HttpReq) (pre : Bytes) (hm : r.method = .post) (hp : r.path = pre ++ ascii "/locks/verify") :
    LfsMedia r 200 (some (ascii "application/vnd.git-lfs+json"))
  | create (r : HttpReq) (pre : Bytes) (hm : r.method = .post) (hp : r.path = pre ++ ascii "/locks") :
    LfsMedia r 201 (some (ascii "application/vnd.git-lfs+json"))
  | delete (r : HttpReq) (pre id : Bytes) (hm : r.method = .post) (hp : r.path = pre ++ ascii "/locks/" ++ id ++ ascii "/unlock") (hi : (0x2f : UInt8) ∉ id) :
    LfsMedia r 200 (some (ascii "application/vnd.git-lfs+json"))
  | batch (r : HttpReq) (pre : Bytes) (hm : r.method = .post) (hp : r.path = pre ++ ascii "/objects/batch") :
    LfsMedia r 200 (some (ascii "application/vnd.git-lfs+json"))

/-- **C98** A successful reply of the LFS API is labelled as LFS JSON, with status 201 for a new lock and 200 otherwise. -/
theorem C98_lfs {P : ServerExt} {m : Moment} {s : ServerState} {r : HttpReq} {status : Nat} {media : Option Bytes} (hg : Spec.LfsMedia r status media)
    {b : Payload} (h : (serve P m s r).1 = .reply (.ok b)) :
    ∃ head, replyHead r (serve P m s r).1 = some head ∧ head.status = status ∧ Spec.header (ascii "Content-Type") head = media := by
  refine ⟨_, by rw [h]; rfl, ?_⟩
  cases hg with
  | list pre hm hp hn =>
    rw [hm, hp, C57_routed_partial (Spec.Endpoint.listLocks pre r.service) (fun _ => by rw [← hp]; exact hn)]
    exact ⟨rfl, rfl⟩
  | verify pre hm hp =>
    rw [hm, hp, C57_routed_partial (Spec.Endpoint.verifyLocks pre r.service) (fun h => by cases h)]
    exact ⟨rfl, rfl⟩
  | create pre hm hp =>
    rw [hm, hp, C57_routed_partial (Spec.Endpoint.createLock pre r.service) (fun h => by cases h)]
    exact ⟨rfl, rfl⟩
  | delete pre id hm hp hi =>
    rw [hm, hp, C57_routed_partial (Spec.Endpoint.deleteLock pre id r.service hi) (fun h => by cases h)]
    exact ⟨rfl, rfl⟩
  | batch pre hm hp =>
    rw [hm, hp, C57_routed_partial (Spec.Endpoint.batch pre r.service) (fun h => by cases h)]
    exact ⟨rfl, rfl⟩

/-- The theorem applied: a push of two commits is answered with status 200 and git's media type; a ref list of a repository nobody knows, with its own;
a request for another file, with plain text. -/
example : ∃ pack s rep, serve demoServer demoMoment .empty (Spec.pushReq (ascii "/app" ++ []) (Spec.pushBody appCmd [] (ascii "report-status") pack)) =
      (.reply (.ok (.bytes rep)), s) ∧
    (∃ head, replyHead (Spec.pushReq (ascii "/app" ++ []) (Spec.pushBody appCmd [] (ascii "report-status") pack))
        (serve demoServer demoMoment .empty (Spec.pushReq (ascii "/app" ++ []) (Spec.pushBody appCmd [] (ascii "report-status") pack))).1 = some head ∧ head.status = 200 ∧
      Spec.header (ascii "Content-Type") head = some (ascii "application/x-git-receive-pack-result")) ∧
    replyHead { method := .get, path := ascii "/x/HEAD", service := none, query := {}, body := [] } (.reply (.status 403)) =
      some ⟨403, [(ascii "Content-Type", ascii "text/plain; charset=utf-8")]⟩ := by
  obtain ⟨pack, rep, s, _, h2, _⟩ := demo_app
  obtain ⟨head, h3, h4, h5, _⟩ := C98_labelled (P := demoServer) (m := demoMoment) (s := .empty)
    (.push (Spec.pushReq (ascii "/app" ++ []) (Spec.pushBody appCmd [] (ascii "report-status") pack)) (ascii "/app" ++ []) rfl rfl) (by rw [h2])
  exact ⟨pack, s, rep, h2, ⟨head, h3, h4, h5⟩, by decide +kernel⟩

end Gust

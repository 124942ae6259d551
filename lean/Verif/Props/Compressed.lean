import Verif.Props.Rounds

/-! # C129, C130: compressed requests and probes -/

namespace Gust

/-- The content coding `gzip`: every compressed body starts with the two magic bytes and the compression method (RFC 1952, 2.3.1). Git clients send fetch requests of more than 1024 bytes
in this coding, with the header `Content-Encoding: gzip`. -/
def Spec.GzipCoding (gz : Bytes → Bytes) : Prop := ∀ b, ∃ rest, gz b = 0x1f :: 0x8b :: 0x08 :: rest

theorem readPktLine_gzip (b : Bytes) : readPktLine (0x1f :: 0x8b :: b) = .panic := by
  unfold readPktLine
  rw [if_neg (by simp)]
  split
  · rfl
  · match b with
    | [] => simp at *
    | [_] => simp at *
    | x :: y :: b =>
      have : parseHexUsize ((0x1f :: 0x8b :: x :: y :: b).take 4) = none := by
        rfl
      rw [this]

theorem fetchLoop_gzip (fuel : Nat) (s : FetchState) (b : Bytes) : fetchLoop (fuel + 1) s (0x1f :: 0x8b :: b) = .panic := by
  rw [fetchLoop, readPktLine_gzip]
  rfl

/-- **C129 is false**: a compressed request, for a fetch or for a push, is never answered: the connection is dropped. Nothing is changed. This is so for every request, repository and state of the
server. -/
theorem C129_compressed_false (P : ServerExt) (m : Moment) (s : ServerState) {u g : Bytes} (hu : Spec.CleanUrl u) (hg : g = [] ∨ g = ascii ".git") (gz : Bytes → Bytes) (hgz : Spec.GzipCoding gz)
    (body : Bytes) :
    serve P m s (Spec.fetchReq (u ++ g) (gz body)) = (.reply .panic, s) ∧ serve P m s (Spec.pushReq (u ++ g) (gz body)) = (.reply .panic, s) := by
  obtain ⟨rest, e⟩ := hgz body
  rw [e]
  constructor
  · have hroute := route_fetch hu hg
    simp only [serve, Spec.fetchReq, hroute, httpUploadPack, fetchLoop_gzip]
    rfl
  · have hroute := route_push hu hg
    have hp : (ascii "PACK").isPrefixOf (0x1f :: 0x8b :: 0x08 :: rest) = false := rfl
    have hc : ∀ st : PushState Db, receiveCommand st (0x1f :: 0x8b :: 0x08 :: rest) = .panic := by
      intro st
      rw [receiveCommand, readPktLine_gzip]
      rfl
    simp only [serve, Spec.pushReq, hroute, httpReceivePack, httpReceiveDb, gitReceivePack, gitReceiveDb, hp, hc, Bool.false_eq_true, if_false]
    rfl

/-- **C129 is false** also where the same request is answered when it is not compressed: a project is pushed; a clone request is answered with all of the project, and dropped if it is compressed. -/
theorem C129_clone_false : ∃ (pack rep : Bytes) (h : BothHist) (m : Moment) (out file : Bytes) (q : Pack),
    Spec.PushedAny demoServer (ascii "/app") appCmd (ascii "report-status") pack rep demoMoment bothBefore h ∧
    (serve demoServer m (runBoth demoServer .empty h).web (Spec.fetchReq (ascii "/app") (doneBody cloneLines (ascii "\n") []))).1 = .reply (.ok (.bytes out)) ∧
    Spec.readClone out = some file ∧ decodePack polyExt (fun _ => none) 1 file = .ok q ∧
    Spec.CheckedOut q.result.hashObject (idOf polyExt (.commit, appCommit.encode)) [ascii "src", ascii "a"] (ascii "100644") (ascii "one") ∧
    ∀ gz, Spec.GzipCoding gz → (serve demoServer m (runBoth demoServer .empty h).web (Spec.fetchReq (ascii "/app") (gz (doneBody cloneLines (ascii "\n") [])))).1 = .reply .panic := by
  obtain ⟨pack, rep, p, h1, h2, h3, _, h5, _⟩ := both_pushed
  obtain ⟨m, out, file, q, _, k1, _, k2, k3, k4⟩ := both_cloned h1 h2 h3 h5 (fun _ e => nomatch e) (by simp)
  refine ⟨pack, rep, _, m, out, file, q, h5, k1, k2, k3, k4, fun gz hgz => ?_⟩
  have := (C129_compressed_false demoServer m (runBoth demoServer .empty (bothBefore ++ [(demoMoment, .ssh 0 (.data 0 pack))])).web app_url (g := []) (.inl rfl) gz hgz (doneBody cloneLines (ascii "\n") [])).1
  rw [List.append_nil] at this
  rw [this]

/-- A coding as the theorem assumes: a member of one stored block (without its trailing checksum). -/
example (P : ServerExt) (m : Moment) (s : ServerState) (body : Bytes) :
    serve P m s (Spec.fetchReq (ascii "/app" ++ ascii ".git") ([0x1f, 0x8b, 0x08, 0, 0, 0, 0, 0, 0, 0xff, 1] ++ body)) = (.reply .panic, s) :=
  (C129_compressed_false P m s app_url (.inr rfl) (fun b => [0x1f, 0x8b, 0x08, 0, 0, 0, 0, 0, 0, 0xff, 1] ++ b) (fun _ => ⟨_, rfl⟩) body).1

/-! ## C130: probes -/

/-- The request with which a git client tests the connection before it sends a large request in pieces: a flush packet only. -/
def Spec.probe : Bytes := Spec.frame .flush

/-- **C130 (partial)** Before a push: the test is answered with an empty reply and changes nothing, in every state of the server, whatever the repository. (Missing from the full claim: tests before a
fetch, see `C130_fetch_false`.) -/
theorem C130_push_partial (P : ServerExt) (m : Moment) (s : ServerState) {u g : Bytes} (hu : Spec.CleanUrl u) (hg : g = [] ∨ g = ascii ".git") :
    serve P m s (Spec.pushReq (u ++ g) Spec.probe) = (.reply (.ok (.bytes [])), s) := by
  have hroute := route_push hu hg
  have hp : (ascii "PACK").isPrefixOf Spec.probe = false := by decide
  have hp' : (ascii "PACK").isPrefixOf ([] : Bytes) = false := rfl
  have hc : ∀ st : PushState Db, receiveCommand st Spec.probe = .ok ([], st) := fun st => by
    have : readPktLine Spec.probe = .ok ((0, []), []) := by decide
    rw [receiveCommand, this]
    rfl
  have hc' : ∀ st : PushState Db, receiveCommand st [] = .ok ([], st) := fun st => rfl
  simp only [serve, Spec.pushReq, hroute, httpReceivePack, httpReceiveDb, gitReceivePack, gitReceiveDb, hp, hp', hc, hc', Bool.false_eq_true, if_false, Res.unwrap_ok, Res.bind_ok]
  rfl

/-- **C130 is false** for fetches: the test is never answered, in any state of the server. -/
theorem C130_fetch_false (P : ServerExt) (m : Moment) (s : ServerState) {u g : Bytes} (hu : Spec.CleanUrl u) (hg : g = [] ∨ g = ascii ".git") :
    (serve P m s (Spec.fetchReq (u ++ g) Spec.probe)).1 = .hang :=
  C92_fetch_false P s m hu hg _ (lines_unfinished [.flush] fun l hl => by rw [List.mem_singleton.1 hl]; trivial)

/-- A push that is preceded by a test ends like one that is not. -/
example (m m0 : Moment) (pack : Bytes) :
    serve demoServer m (runServer demoServer .empty [(m0, Spec.pushReq (ascii "/app" ++ []) Spec.probe)]) (appPush pack) = serve demoServer m .empty (appPush pack) := by
  have e : runServer demoServer .empty [(m0, Spec.pushReq (ascii "/app" ++ []) Spec.probe)] = (serve demoServer m0 .empty (Spec.pushReq (ascii "/app" ++ []) Spec.probe)).2 := rfl
  rw [e, C130_push_partial demoServer m0 .empty app_url (.inl rfl)]

/-- A test before a fetch of `/app.git`, on a server on which nothing has happened. -/
example : (serve demoServer demoMoment .empty (Spec.fetchReq (ascii "/app" ++ ascii ".git") (ascii "0000"))).1 = .hang :=
  C130_fetch_false demoServer demoMoment .empty app_url (.inr rfl)

end Gust

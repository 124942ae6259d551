import Verif.Props.Tags
import Verif.Props.PublishBoth
import Verif.Props.RefsBoth
import Verif.Props.FetchBoth

/-! # C143 over HTTP and SSH together -/

namespace Gust

open Spec (commitsAt)

/-- **C143 is false** for annotated tags, over HTTP and SSH: after anything anybody has done over both, push a complete project with an annotated tag in it over either, and a new ref
that names the tag. The push is answered, the report says `ok` for the ref, and the ref is stored. But whatever happens on the two servers afterwards, no answer to a fetch over HTTP or
SSH, to anybody, has a pack with a tag in it: the objects of every pack are of other types, and none has the id of the pushed tag. -/
theorem C143_lost_both_false (P : ServerExt) (hfold : ∀ a b : Hash, P.D.fold (Hash.toPlainStr a) = P.D.fold (Hash.toPlainStr b) → a = b)
    (u : Bytes) (h1 h' : BothHist) (m1 : Moment)
    (hun1 : UniqueIds P.X (runBoth P .empty h1).web.db) (hm1 : m1.sql.fold = P.D.fold) (hacc : Spec.Accepts m1.sql)
    (c : Spec.PushCmd) (hc : c.Ok) (hnew : c.old = zeroId) (hnz : c.new ≠ zeroId) (caps : Bytes) (hcaps : caps.length ≤ 4000) (hascii : ∀ x ∈ caps, x.toNat < 128)
    (os : List (Nat × Spec.Obj)) (pack : Bytes) (hpack : Spec.PackOf P.X P.D.fold (runBoth P .empty h1).web.db pack os) (hproj : Spec.Project P.X os)
    (hfuel : os.length < m1.fuel) (hsent : Spec.SentAny P u c caps pack m1 h1 h')
    (o : Nat × Spec.Obj) (_ho : o ∈ os) (ht : o.2.1 = .tag) (hid : c.new = Hash.toPlainStr (idOf P.X o.2)) :
    ∃ rep, Spec.PushedAny P u c caps pack rep m1 h1 h' ∧
      Spec.reportLines (decide (.sideBand ∈ parseCapabilities caps ∨ .sideBand64k ∈ parseCapabilities caps)) rep =
        some [ascii "unpack ok\n", Spec.statusLine (c.name ++ [0]) none] ∧
      { repoPath := u, refName := c.name ++ [0], refGitId := Hash.toPlainStr (idOf P.X o.2) } ∈ (runBoth P .empty h').web.db.refs ∧
      ∀ (h2 : BothHist) (path : Bytes) (h : BothHist), h = h' ++ h2 → Spec.SameFoldAny P.D.fold h → Spec.NoneAboveAny P.D.fold path h →
        UniqueIds P.X (runBoth P .empty h).web.db → (∀ x, StoredObj (runBoth P .empty h).web.db x → idOf P.X x = idOf P.X o.2 → x = o.2) → FitsPack P.X (runBoth P .empty h).web.db →
        ∀ (m : Moment), m.sql.fold = P.D.fold → (∀ l x, x ∈ m.ord l ↔ x ∈ l) → ∀ body out, Spec.FetchedAny P path body out m h →
        ∃ (lines : List Bytes) (caps' : List Capability) (file : Bytes), out = lines.flatMap (fun l => hex4 (l.length + 4) ++ l) ++ sendPack caps' (m.cut file) ∧
          (∀ l ∈ lines, Spec.AckLine body l) ∧
          (file = [] ∨ ∃ ms, PackHas P.X file ms ∧ ∀ x ∈ ms, x.t ≠ .tag ∧ x.id ≠ idOf P.X o.2) := by
  obtain ⟨rep, r1, r2⟩ := C111_both_partial P hfold u h1 _ m1 hun1 hm1 hacc c hc caps hcaps hascii (.inl hnew) os pack hpack hproj hfuel hsent
  obtain ⟨p, d1, _⟩ := packOf_read hfold (both_nodes P h1) hun1 hm1 hpack (fuel := m1.fuel) (by omega)
  refine ⟨rep, r1, r2, ?_, ?_⟩
  · rcases pushedAny_refs hc hnz hcaps hascii (decodePack_magic d1) r1 hm1 hacc.refs with ⟨_, e⟩ | ⟨e, _⟩
    · rw [e, ← hid]
      simp
    · exact absurd hnew e
  · intro h2 path h _ hf hab hu2 hcol hfit m hm hord body out hout
    obtain ⟨lines, caps', file, k1, k2, k3⟩ := fetch_confined (runBoth_inv P path h hf hab).2.2 hu2 hfold hfit (Q := fun x => x.1 ≠ .tag ∧ StoredObj (runBoth P .empty h).web.db x)
      (fun x hx => ⟨inRepo_not_tag hx, inRepo_stored hx⟩) hm hord (fetchedAny_http (fun l x => (hord l x).1) hout)
    refine ⟨lines, caps', file, k1, k2, k3.imp_right fun ⟨ms, k4, k5⟩ => ⟨ms, k4, fun x hx => ?_⟩⟩
    obtain ⟨y, ⟨y1, y2⟩, rfl⟩ := k5 x hx
    refine ⟨y1, fun e => ?_⟩
    rw [hcol y y2 e] at y1
    exact y1 ht

/-- **C143 is false** for clients that fetch an annotated tag into a repository that has something already, over HTTP and SSH: over HTTP the connection is dropped, over SSH nothing is
sent, after anything anybody has done, with whatever ids the client says it has. The only id wanted is that of the tag; no other stored object has the same. -/
theorem C143_fetch_both_false (P : ServerExt) (u : Bytes) (h : BothHist) (m : Moment)
    (hord : ∀ l x, x ∈ m.ord l ↔ x ∈ l) (o : Spec.Obj) (ho : o.1 = .tag) (hcol : ∀ x, StoredObj (runBoth P .empty h).web.db x → idOf P.X x = idOf P.X o → x = o)
    (ls : List Spec.ReqLine) (hls : ∀ l ∈ ls, l.Ok) (t rest : Bytes) (ht : t.length ≤ 65000) (hhave : Spec.haveIds ls ≠ []) (hask : Spec.Asks ls (ascii "multi_ack_detailed"))
    (hw : ∀ x ∈ Spec.wantIds ls, x = Hash.toPlainStr (idOf P.X o)) :
    (∀ g, Spec.CleanUrl u → (g = [] ∨ g = ascii ".git") →
      (serve P m (runBoth P .empty h).web (Spec.fetchReq (u ++ g) (doneBody ls t rest))).1 = .reply .panic) ∧
    ∀ i ch, Spec.Opened P u i h → (sshStep P.X m (runBoth P .empty h).ssh i (.data ch (doneBody ls t rest))).1 = [] := by
  refine C149_refused_partial P u h m hord ls hls t rest ht hhave hask fun data hd hmem => ?_
  have e := hcol _ (inRepo_stored hd) (Hash.toPlainStr_injective (hw _ hmem))
  rw [← e] at ho
  cases ho

/-- **C143 (partial)** A lightweight tag, that is a ref (of whatever name) that names a commit of the pushed project, works over HTTP and SSH: the push is answered, the ref is stored with the
id of the commit and stays as long as nobody pushes to the same repository over either, and whoever clones, over HTTP or on an SSH connection that is open for the repository, finds the
commit with exactly its files. Annotated tags in the same push do no harm to the commits. (Missing from the full claim: annotated tags, see `C143_lost_both_false`; the name is stored
with a NUL byte appended, see `C150_name_false`.) -/
theorem C143_light_both_partial (P : ServerExt) (hfold : ∀ a b : Hash, P.D.fold (Hash.toPlainStr a) = P.D.fold (Hash.toPlainStr b) → a = b)
    (u : Bytes) (h1 h' h2 : BothHist) (m1 m2 : Moment)
    (c : Spec.PushCmd) (hc : c.Ok) (hnew : c.old = zeroId) (hnz : c.new ≠ zeroId) (caps : Bytes) (hcaps : caps.length ≤ 4000) (hascii : ∀ x ∈ caps, x.toNat < 128)
    (os : List (Nat × Spec.Obj)) (pack : Bytes) (hpack : Spec.PackOf P.X P.D.fold (runBoth P .empty h1).web.db pack os) (hproj : Spec.Project P.X os)
    (o : Nat × Spec.Obj) (ho : o ∈ os) (ht : o.2.1 = .commit) (hid : c.new = Hash.toPlainStr (idOf P.X o.2)) (hsent : Spec.SentAny P u c caps pack m1 h1 h')
    (hacc : Spec.Accepts m1.sql) (hfuel1 : os.length < m1.fuel)
    (hfl : Spec.SameFoldAny P.D.fold (h' ++ h2)) (hm2 : m2.sql.fold = P.D.fold) (hab : Spec.NoneAboveAny P.D.fold u (h' ++ h2))
    (hun : UniqueIds P.X (runBoth P .empty (h' ++ h2)).web.db) (hfit : FitsPack P.X (runBoth P .empty (h' ++ h2)).web.db)
    (hfuel2 : (runBoth P .empty (h' ++ h2)).web.db.nodes.length ≤ m2.fuel)
    (hord : ∀ l x, x ∈ m2.ord l ↔ x ∈ l) (hcut : Spec.CutOk m2.cut) (ls : List Spec.ReqLine) (t rest : Bytes) (hr : Spec.CloneReq ls t) :
    ∃ rep out, Spec.PushedAny P u c caps pack rep m1 h1 h' ∧
      Spec.reportLines (decide (.sideBand ∈ parseCapabilities caps ∨ .sideBand64k ∈ parseCapabilities caps)) rep =
        some [ascii "unpack ok\n", Spec.statusLine (c.name ++ [0]) none] ∧
      (Spec.NoPush P u (runBoth P .empty h') h2 →
        { repoPath := u, refName := c.name ++ [0], refGitId := Hash.toPlainStr (idOf P.X o.2) } ∈ (runBoth P .empty (h' ++ h2)).web.db.refs) ∧
      (∀ g, Spec.CleanUrl u → (g = [] ∨ g = ascii ".git") →
        (serve P m2 (runBoth P .empty (h' ++ h2)).web (Spec.fetchReq (u ++ g) (doneBody ls t rest))).1 = .reply (.ok (.bytes out))) ∧
      (∀ i ch, Spec.Opened P u i (h' ++ h2) → (sshStep P.X m2 (runBoth P .empty (h' ++ h2)).ssh i (.data ch (doneBody ls t rest))).1 = [(ch, out)]) ∧
      ((∃ g, Spec.CleanUrl u ∧ (g = [] ∨ g = ascii ".git")) ∨ (∃ i, Spec.Opened P u i (h' ++ h2)) → ∃ file, Spec.readClone out = some file ∧
        ∀ St fuel, ∃ q, decodePack P.X St (fuel + 1) file = .ok q ∧
          ∀ path mode data, Spec.CheckedOut (Spec.found P.X os) (idOf P.X o.2) path mode data ↔ Spec.CheckedOut q.result.hashObject (idOf P.X o.2) path mode data) := by
  obtain ⟨v, rfl⟩ : ∃ v, h' = h1 ++ [(m1, v)] := by
    cases hsent <;> exact ⟨_, rfl⟩
  have ext : Extends (runBoth P .empty h1).web.db (runBoth P .empty (h1 ++ [(m1, v)] ++ h2)).web.db := by
    rw [List.append_assoc, runBoth_append]
    exact runBoth_extends P _ _
  have hm1 : m1.sql.fold = P.D.fold := hfl (m1, v) (by simp)
  obtain ⟨rep, out, r1, r2, r3, r4, r5⟩ := C111_both_published_partial P hfold u h1 _ h2 m1 m2 c hc caps hcaps hascii (.inl hnew) os pack hpack hproj ⟨o, ho, ht⟩ hsent hacc hfuel1 hfl hm2
    hab hun hfit hfuel2 hord hcut ls t rest hr
  obtain ⟨p, d1, _⟩ := packOf_read hfold (both_nodes P h1) (ext.unique hun) hm1 hpack (fuel := m1.fuel) (by omega)
  refine ⟨rep, out, r1, r2, fun hno => ?_, r3, r4, fun hhow => ?_⟩
  · rw [runBoth_append]
    refine runBoth_row rfl hno ?_
    rcases pushedAny_refs hc hnz hcaps hascii (decodePack_magic d1) r1 hm1 hacc.refs with ⟨_, e⟩ | ⟨e, _⟩
    · rw [e, ← hid]
      simp
    · exact absurd hnew e
  · obtain ⟨file, f1, f2⟩ := r5 hhow
    refine ⟨file, f1, fun St fuel => ?_⟩
    obtain ⟨q, q1, q2⟩ := f2 St fuel
    exact ⟨q, q1, q2 o ho ht⟩

end Gust

import Verif.Lemmas.GitObjects
import Verif.Props.PublishBoth
import Verif.Props.PublishBothExamples

/-! # C138: projects in any language and of any age can be published

C111 asks that the objects of a project can be read by the server. Here the objects are in the formats of git (`Spec/GitObjects.lean`), and it is proved which of them can be read: those in UTF-8 with times since 1970. -/

namespace Gust

/-! ## Spec -/

/-- A complete project in git's formats: every commit has its directory, every entry of a directory (no submodules) its file or directory; `depth` bounds how deep directories are nested. -/
structure Spec.GitProject (X : Ext) (os : List (Nat × Spec.Obj)) (depth : Hash → Nat) : Prop where
  kinds : ∀ p ∈ os, p.2.1 = .commit ∨ p.2.1 = .tree ∨ p.2.1 = .blob ∨ p.2.1 = .tag
  commits : ∀ p ∈ os, p.2.1 = .commit → ∃ c : Spec.CommitData, c.Ok ∧ c.text = p.2.2 ∧ ∃ q ∈ os, q.2.1 = .tree ∧ idOf X q.2 = c.tree
  trees : ∀ p ∈ os, p.2.1 = .tree → ∃ es : List Spec.EntryData, (∀ e ∈ es, e.Ok) ∧ es.flatMap Spec.EntryData.text = p.2.2 ∧ (es.map Spec.EntryData.name).Nodup ∧
    ∀ e ∈ es, (∃ q ∈ os, idOf X q.2 = e.id ∧ q.2.1 = if e.mode = ascii "40000" then .tree else .blob) ∧ (e.mode = ascii "40000" → depth e.id < depth (idOf X p.2))
  tags : ∀ p ∈ os, p.2.1 = .tag → ∃ g : Spec.TagData, g.Ok ∧ g.text = p.2.2

/-- An object that is not in UTF-8, or that has a time before 1970, or a tag without a tagger. -/
inductive Spec.Foreign : Spec.Obj → Prop
  | commit (c : Spec.CommitData) : c.Ok → ¬ c.Plain → Spec.Foreign (.commit, c.text)
  | tree (es : List Spec.EntryData) : (∀ e ∈ es, e.Ok) → (∃ e ∈ es, ¬ utf8Valid e.name = true) → Spec.Foreign (.tree, es.flatMap Spec.EntryData.text)
  | tag (g : Spec.TagData) : g.Ok → ¬ g.Plain → Spec.Foreign (.tag, g.text)

/-! ## Projects in git's formats are projects the server can read -/

theorem found_mem {X : Ext} {os : List (Nat × Spec.Obj)} {h : Hash} {m : MetaData} (hm : Spec.found X os h = some m) : ∃ p ∈ os, metaOf X p.2 = m ∧ m.id = h := by
  unfold Spec.found at hm
  obtain ⟨p, hp, rfl⟩ := Option.map_eq_some_iff.1 hm
  exact ⟨p, List.mem_of_find?_eq_some hp, rfl, show idOf X p.2 = h by simpa using List.find?_some hp⟩

theorem gitProject_project {X : Ext} {os : List (Nat × Spec.Obj)} (hcol : Spec.NoCollision (idOf X) os) {depth : Hash → Nat} (h : Spec.GitProject X os depth)
    (hplain : ∀ p ∈ os, ¬ Spec.Foreign p.2) : Spec.Project X os := by
  have tree : ∀ o, Spec.found X os o.id = some o → o.t = .tree → ∃ es : List Spec.EntryData, decodeTree o.data = .ok (es.map Spec.EntryData.item) ∧
      (∀ e ∈ es, e.Ok) ∧ (es.map Spec.EntryData.name).Nodup ∧
      ∀ e ∈ es, (∃ x, Spec.found X os e.id = some x ∧ x.id = e.id ∧ x.t = if e.mode = ascii "40000" then .tree else .blob) ∧ (e.mode = ascii "40000" → depth e.id < depth o.id) := by
    intro o ho ht
    obtain ⟨p, hp, rfl, _⟩ := found_mem ho
    obtain ⟨es, e1, e2, e3, e4⟩ := h.trees p hp ht
    refine ⟨es, ?_, e1, e3, ?_⟩
    · rcases entries_decode es e1 with ⟨_, k⟩ | ⟨k, _⟩
      · rw [e2] at k
        exact k
      · refine absurd ?_ (hplain p hp)
        have := Spec.Foreign.tree es e1 k
        rw [e2, ← show p.2.1 = .tree from ht] at this
        exact this
    · intro e he
      obtain ⟨⟨q, q1, q2, q3⟩, k⟩ := e4 e he
      exact ⟨⟨metaOf X q.2, (found_iff hcol _ _).2 ⟨q, q1, rfl, q2⟩, q2, q3⟩, k⟩
  have mode : ∀ e : Spec.EntryData, (e.item.itemType = .tree) = (e.mode = ascii "40000") := by
    intro e
    simp only [Spec.EntryData.item, Spec.modeType, eq_iff_iff]
    constructor
    · intro k
      repeat' split at k
      all_goals first | assumption | cases k
    · intro k
      rw [if_pos k]
  refine ⟨⟨?_, ?_, ?_, ?_, ?_, ?_⟩, ?_⟩
  · intro o ho
    obtain ⟨p, hp, rfl, _⟩ := found_mem ho
    exact h.kinds p hp
  · intro o ho ht
    obtain ⟨p, hp, rfl, _⟩ := found_mem ho
    obtain ⟨c, c1, c2, q, q1, q2, q3⟩ := h.commits p hp ht
    have hd := commitData_decode c c1
    rw [c2] at hd
    split at hd
    · exact ⟨_, hd, metaOf X q.2, (found_iff hcol _ _).2 ⟨q, q1, rfl, q3⟩, q3, q2⟩
    · rename_i k
      refine absurd ?_ (hplain p hp)
      have := Spec.Foreign.commit c c1 k
      rw [c2, ← show p.2.1 = .commit from ht] at this
      exact this
  · intro o ho ht
    obtain ⟨es, e1, _⟩ := tree o ho ht
    exact ⟨_, e1⟩
  · intro o ho ht
    obtain ⟨p, hp, rfl, _⟩ := found_mem ho
    obtain ⟨g, g1, g2⟩ := h.tags p hp ht
    rcases tagData_decode g g1 with ⟨⟨t, k⟩, _⟩ | ⟨_, k⟩
    · rw [g2] at k
      exact ⟨t, k⟩
    · refine absurd ?_ (hplain p hp)
      have := Spec.Foreign.tag g g1 k
      rw [g2, ← show p.2.1 = .tag from ht] at this
      exact this
  · intro o items i _ ho ht hd hi
    obtain ⟨es, e1, e2, e3, e4⟩ := tree o ho ht
    rw [e1] at hd
    cases hd
    obtain ⟨e, he, rfl⟩ := List.mem_map.1 hi
    obtain ⟨⟨x, x1, x2, x3⟩, _⟩ := e4 e he
    refine ⟨x, x1, x2, ?_⟩
    rw [x3]
    simp only [mode]
  · intro o items _ ho ht hd
    obtain ⟨es, e1, e2, e3, e4⟩ := tree o ho ht
    rw [e1] at hd
    cases hd
    rw [List.map_map]
    exact e3
  · intro o items i ho ht hd hi hb
    obtain ⟨es, e1, e2, e3, e4⟩ := tree o ho ht
    rw [e1] at hd
    cases hd
    obtain ⟨e, he, rfl⟩ := List.mem_map.1 hi
    obtain ⟨⟨x, x1, x2, x3⟩, hdep⟩ := e4 e he
    by_cases hm : e.mode = ascii "40000"
    · have inv : ∀ y, Spec.PackBelow (Spec.found X os) e.item.id y → ∀ m, Spec.found X os y = some m → m.t = .tree → depth y ≤ depth e.id := by
        intro y hy
        induction hy with
        | refl => exact fun _ _ _ => Nat.le_refl _
        | item o' items' i' _ ho' ht' hd' hi' ih =>
          intro m hm1 hm2
          obtain ⟨es', f1, f2, f3, f4⟩ := tree o' ho' ht'
          rw [f1] at hd'
          cases hd'
          obtain ⟨e', he', rfl⟩ := List.mem_map.1 hi'
          obtain ⟨⟨x', y1, y2, y3⟩, hdep'⟩ := f4 e' he'
          have em : x' = m := by
            have := y1.symm.trans hm1
            exact Option.some.inj this
          subst em
          have hmode : e'.mode = ascii "40000" := by
            by_contra hne
            rw [if_neg hne, hm2] at y3
            cases y3
          have := ih o' ho' ht'
          have := hdep' hmode
          show depth e'.id ≤ depth e.id
          omega
      have := inv o.id hb o ho ht
      have := hdep hm
      omega
    · rw [if_neg hm] at x3
      have key : ∀ y, Spec.PackBelow (Spec.found X os) e.item.id y → y = e.id := by
        intro y hy
        induction hy with
        | refl => rfl
        | item o' items' i' _ ho' ht' _ _ ih =>
          rw [ih, x1] at ho'
          cases ho'
          rw [x3] at ht'
          cases ht'
      rw [key o.id hb, x1] at ho
      cases ho
      rw [x3] at ht
      cases ht

/-! ## The claims -/

/-- **C138 (partial)** After anything anybody has done over HTTP and SSH: the push over HTTP or SSH of a complete project in git's formats, in a well-formed pack, is answered with `ok` if all texts are UTF-8, all times are
since 1970 and all tags have taggers; merges, signatures and any other headers are welcome. (Missing from the full claim: see `C138_foreign_false`; otherwise as for `C111_both_partial`.) -/
theorem C138_accepted_partial (P : ServerExt) (hfold : ∀ a b : Hash, P.D.fold (Hash.toPlainStr a) = P.D.fold (Hash.toPlainStr b) → a = b)
    (u : Bytes) (h h' : BothHist) (m : Moment)
    (hun : UniqueIds P.X (runBoth P .empty h).web.db) (hm : m.sql.fold = P.D.fold) (hacc : Spec.Accepts m.sql)
    (c : Spec.PushCmd) (hc : c.Ok) (caps : Bytes) (hcaps : caps.length ≤ 4000) (hascii : ∀ x ∈ caps, x.toNat < 128)
    (happ : Spec.Applies P.D.fold (runBoth P .empty h).web.db u c)
    (os : List (Nat × Spec.Obj)) (pack : Bytes) (hpack : Spec.PackOf P.X P.D.fold (runBoth P .empty h).web.db pack os)
    (depth : Hash → Nat) (hproj : Spec.GitProject P.X os depth) (hplain : ∀ p ∈ os, ¬ Spec.Foreign p.2)
    (hfuel : os.length < m.fuel) (hsent : Spec.SentAny P u c caps pack m h h') :
    ∃ rep, Spec.PushedAny P u c caps pack rep m h h' ∧
      Spec.reportLines (decide (.sideBand ∈ parseCapabilities caps ∨ .sideBand64k ∈ parseCapabilities caps)) rep =
        some [ascii "unpack ok\n", Spec.statusLine (c.name ++ [0]) none] :=
  C111_both_partial P hfold u h h' m hun hm hacc c hc caps hcaps hascii happ os pack hpack (gitProject_project hpack.ids hproj hplain) hfuel hsent

/-- **C138 (partial)** And whoever clones the repository afterwards, over HTTP or SSH, whatever anybody has done in between, finds in every commit exactly the files of the project. (Missing from the full claim: as above, and as for
`C111_both_published_partial`.) -/
theorem C138_published_partial (P : ServerExt) (hfold : ∀ a b : Hash, P.D.fold (Hash.toPlainStr a) = P.D.fold (Hash.toPlainStr b) → a = b)
    (u : Bytes) (h h' h2 : BothHist) (m1 m2 : Moment)
    (c : Spec.PushCmd) (hc : c.Ok) (caps : Bytes) (hcaps : caps.length ≤ 4000) (hascii : ∀ x ∈ caps, x.toNat < 128)
    (happ : Spec.Applies P.D.fold (runBoth P .empty h).web.db u c)
    (os : List (Nat × Spec.Obj)) (pack : Bytes) (hpack : Spec.PackOf P.X P.D.fold (runBoth P .empty h).web.db pack os)
    (depth : Hash → Nat) (hproj : Spec.GitProject P.X os depth) (hplain : ∀ p ∈ os, ¬ Spec.Foreign p.2)
    (hcommit : ∃ p ∈ os, p.2.1 = .commit) (hsent : Spec.SentAny P u c caps pack m1 h h')
    (hacc : Spec.Accepts m1.sql) (hfuel1 : os.length < m1.fuel)
    (hfl : Spec.SameFoldAny P.D.fold (h' ++ h2)) (hm2 : m2.sql.fold = P.D.fold) (hab : Spec.NoneAboveAny P.D.fold u (h' ++ h2))
    (hun : UniqueIds P.X (runBoth P .empty (h' ++ h2)).web.db) (hfit : FitsPack P.X (runBoth P .empty (h' ++ h2)).web.db)
    (hfuel2 : (runBoth P .empty (h' ++ h2)).web.db.nodes.length ≤ m2.fuel)
    (hord : ∀ l x, x ∈ m2.ord l ↔ x ∈ l) (hcut : Spec.CutOk m2.cut) (ls : List Spec.ReqLine) (t rest : Bytes) (hr : Spec.CloneReq ls t) :
    ∃ out, (∀ g, Spec.CleanUrl u → (g = [] ∨ g = ascii ".git") →
        (serve P m2 (runBoth P .empty (h' ++ h2)).web (Spec.fetchReq (u ++ g) (doneBody ls t rest))).1 = .reply (.ok (.bytes out))) ∧
      (∀ i ch, Spec.Opened P u i (h' ++ h2) → (sshStep P.X m2 (runBoth P .empty (h' ++ h2)).ssh i (.data ch (doneBody ls t rest))).1 = [(ch, out)]) ∧
      ((∃ g, Spec.CleanUrl u ∧ (g = [] ∨ g = ascii ".git")) ∨ (∃ i, Spec.Opened P u i (h' ++ h2)) → ∃ file, Spec.readClone out = some file ∧
        ∀ St fuel, ∃ q, decodePack P.X St (fuel + 1) file = .ok q ∧ ∀ p ∈ os, p.2.1 = .commit →
          ∀ path mode data, Spec.CheckedOut (Spec.found P.X os) (idOf P.X p.2) path mode data ↔ Spec.CheckedOut q.result.hashObject (idOf P.X p.2) path mode data) := by
  obtain ⟨_, out, _, _, k⟩ := C111_both_published_partial P hfold u h h' h2 m1 m2 c hc caps hcaps hascii happ os pack hpack (gitProject_project hpack.ids hproj hplain) hcommit hsent hacc hfuel1 hfl hm2 hab hun hfit
    hfuel2 hord hcut ls t rest hr
  exact ⟨out, k⟩

theorem foreign_panics {X : Ext} {o : Spec.Obj} (h : Spec.Foreign o) : decodeObject (metaOf X o) = .panic := by
  cases h with
  | commit c' k1 k2 =>
    simp only [decodeObject, metaOf, commitData_decode c' k1, if_neg k2]
    rfl
  | tree es k1 k2 =>
    rcases entries_decode es k1 with ⟨k, _⟩ | ⟨_, k⟩
    · obtain ⟨x, hx, k2⟩ := k2
      exact absurd (k x hx) k2
    · simp only [decodeObject, metaOf, k]
      rfl
  | tag g k1 k2 =>
    rcases tagData_decode g k1 with ⟨_, k⟩ | ⟨k, _⟩
    · exact absurd k k2
    · simp only [decodeObject, metaOf, k]
      rfl

theorem foreign_lost {P : ServerExt} {u : Bytes} {h h' : BothHist} {m : Moment} {c : Spec.PushCmd} (hc : c.Ok) {caps : Bytes} (hcaps : caps.length ≤ 4000) (hascii : ∀ x ∈ caps, x.toNat < 128)
    {pack : Bytes} {pk : Pack} (d1 : decodePack P.X (getHashObject P.X m.sql (runBoth P .empty h).web.db) m.fuel pack = .ok pk)
    {o : Spec.Obj} (ho : pk.result.hashObject (idOf P.X o) = some (metaOf P.X o)) (hforeign : Spec.Foreign o) (hsent : Spec.SentAny P u c caps pack m h h') :
    Spec.LostAny P u c caps pack m h h' := by
  obtain ⟨hist, e, _⟩ := decodePack_hist d1
  have hpool : m.sql.pool pk.result = .panic :=
    ((C36_fails_iff (self := _) (by rw [e]; exact PackCache.keyed_run hist)).2 _ (m.sql.pool_outcome pk.result)).2 ⟨metaOf P.X o, ho, foreign_panics hforeign⟩
  refine sent_lost hc hcaps hascii hsent (.inl ?_)
  rw [push_answer _ u _ c hc caps hcaps hascii pack (decodePack_magic d1)]
  unfold receiveData
  simp only [List.getLast?_singleton, mysqlPush, d1]
  have hs : savePackfile m.sql m.fuel pk u (runBoth P .empty h).web.db = (.panic, (runBoth P .empty h).web.db) := by
    unfold savePackfile
    rw [hpool]
  rw [hs]
  rfl

/-- **C138 is false** for all other projects, whatever the servers have stored: a push of a well-formed pack, over HTTP or SSH, is not answered if in the pack there is a commit with a message, a name or an address that is not UTF-8 or with a time
before 1970, or a directory with a name that is not UTF-8, or such a tag or one without a tagger. -/
theorem C138_foreign_false (P : ServerExt) (hfold : ∀ a b : Hash, P.D.fold (Hash.toPlainStr a) = P.D.fold (Hash.toPlainStr b) → a = b)
    (u : Bytes) (h h' : BothHist) (m : Moment) (hun : UniqueIds P.X (runBoth P .empty h).web.db) (hm : m.sql.fold = P.D.fold)
    (c : Spec.PushCmd) (hc : c.Ok) (caps : Bytes) (hcaps : caps.length ≤ 4000) (hascii : ∀ x ∈ caps, x.toNat < 128)
    (os : List (Nat × Spec.Obj)) (pack : Bytes) (hpack : Spec.PackOf P.X P.D.fold (runBoth P .empty h).web.db pack os) (h0 : 0 < m.fuel)
    (p : Nat × Spec.Obj) (hp : p ∈ os) (hforeign : Spec.Foreign p.2) (hsent : Spec.SentAny P u c caps pack m h h') :
    Spec.LostAny P u c caps pack m h h' := by
  obtain ⟨pk, d1, d2⟩ := packOf_read hfold (both_nodes P h) hun hm hpack h0
  exact foreign_lost hc hcaps hascii d1 (by rw [d2]; exact (found_iff hpack.ids _ _).2 ⟨p, hp, rfl, rfl⟩) hforeign hsent

/-! ## A project with one file -/

def textPerson : Spec.Person := { name := ascii "A U Thor", email := ascii "a@b.c", before := false, seconds := 1700000000, zone := ascii "+0100" }

theorem textPerson_ok : textPerson.Ok :=
  ⟨by decide, by decide, ⟨0x2B, ascii "0100", by decide, .inl rfl, by decide, by decide⟩⟩

theorem textPerson_plain : textPerson.Plain := ⟨by decide +kernel, by decide +kernel, rfl, by decide⟩

def textEntries : List Spec.EntryData := [{ mode := ascii "100644", name := ascii "a", id := idOf polyExt (.blob, ascii "one") }]

theorem textEntries_ok : ∀ e ∈ textEntries, e.Ok := by
  intro e he
  cases List.mem_singleton.1 he
  exact ⟨.tail _ (.head _), by decide⟩

def textTree : Bytes := textEntries.flatMap Spec.EntryData.text

/-- A merge of two commits. -/
def textCommit (rest : Bytes) : Spec.CommitData :=
  { tree := idOf polyExt (.tree, textTree), parents := [⟨List.replicate 20 7, rfl⟩, ⟨List.replicate 20 8, rfl⟩], author := textPerson, committer := textPerson, rest := rest }

theorem textCommit_ok (rest : Bytes) : (textCommit rest).Ok := ⟨textPerson_ok, textPerson_ok⟩

def textObjects (rest : Bytes) : List MetaData :=
  [metaOf polyExt (.commit, (textCommit rest).text), metaOf polyExt (.tree, textTree), metaOf polyExt (.blob, ascii "one")]

theorem textObjects_new (rest : Bytes) : ∀ m ∈ textObjects rest, MetaData.new polyExt m.t m.data = .ok m := by
  intro m hm
  simp only [textObjects, List.mem_cons, List.not_mem_nil, or_false] at hm
  rcases hm with rfl | rfl | rfl
  · exact new_metaOf polyExt (.commit, _) rfl
  · exact new_metaOf polyExt (.tree, _) rfl
  · exact new_metaOf polyExt (.blob, _) rfl

/-- A message in ISO-8859-1. -/
def latinRest : Bytes := ascii "encoding ISO-8859-1\n\ncaf" ++ [0xE9, 0x0a]

/-- A signature and a message in ASCII. -/
def signedRest : Bytes := ascii "gpgsig -----BEGIN PGP SIGNATURE-----\n \n iQIz\n -----END PGP SIGNATURE-----\n\nMerge\n"

theorem latin_foreign : Spec.Foreign (.commit, (textCommit latinRest).text) := .commit _ (textCommit_ok _) (fun k => by
  have : utf8Valid latinRest = false := by decide +kernel
  have k3 : utf8Valid latinRest = true := k.2.2
  rw [this] at k3
  cases k3)

/-- **C138 is false**: there is a well-formed pack of a project with a commit of which the message is in ISO-8859-1, as its header `encoding` says, and on the server of the examples no push of it is answered, whatever has happened
before, over HTTP and SSH, to whichever repository and branch. -/
theorem C138_latin_false : ∃ pack : Bytes, (∃ r, encodePack polyExt (textObjects latinRest) = .ok (r, pack)) ∧
    ∀ (h h' : BothHist) (u : Bytes) (c : Spec.PushCmd), c.Ok → ∀ (m : Moment), 0 < m.fuel →
      Spec.SentAny demoServer u c (ascii "report-status") pack m h h' → Spec.LostAny demoServer u c (ascii "report-status") pack m h h' := by
  have key : ∀ St fuel, ∃ r pack p, encodePack polyExt (textObjects latinRest) = .ok (r, pack) ∧ decodePack polyExt St (fuel + 1) pack = .ok p ∧
      ∀ h m, p.result.hashObject h = some m ↔ m ∈ textObjects latinRest ∧ m.id = h := by
    intro St fuel
    have hn : ((textObjects latinRest).map MetaData.id).Nodup := by decide +kernel
    obtain ⟨body, file, p, h1, _, h2, h3⟩ := C27_pack_roundtrip polyExt St (textObjects latinRest) (textObjects_new _) (fun a ha b hb e => List.inj_on_of_nodup_map hn ha hb e)
      (by decide +kernel) (by decide) (by decide) (by decide +kernel) fuel
    exact ⟨_, file, p, h1, h2, h3.byId⟩
  obtain ⟨r0, pack, _, e0, _, _⟩ := key (fun _ => none) 0
  refine ⟨pack, ⟨r0, e0⟩, fun h h' u c hc m hm hsent => ?_⟩
  obtain ⟨f, hf⟩ : ∃ f, m.fuel = f + 1 := ⟨m.fuel - 1, by omega⟩
  obtain ⟨r, pack', p, e, h1, h2⟩ := key (getHashObject polyExt m.sql (runBoth demoServer .empty h).web.db) f
  rw [e0] at e
  obtain ⟨_, rfl⟩ := Prod.mk.inj (Res.ok.inj e)
  exact foreign_lost hc (by decide) (by decide) (P := demoServer) (pk := p) (by rw [hf]; exact h1) ((h2 _ _).2 ⟨.head _, rfl⟩) latin_foreign hsent

/-- C138: such a push over SSH, after other clients have connected; nothing is answered and the connection is closed or silent from then on. -/
example : ∃ pack, (sshStep polyExt roomMoment (runBoth demoServer .empty bothBefore).ssh 0 (.data 0 pack)).1 = [] ∧
    ((sshStep polyExt roomMoment (runBoth demoServer .empty bothBefore).ssh 0 (.data 0 pack)).2.link 0 = .closed ∨
      (sshStep polyExt roomMoment (runBoth demoServer .empty bothBefore).ssh 0 (.data 0 pack)).2.link 0 = .hung) := by
  obtain ⟨pack, _, k⟩ := C138_latin_false
  have := k bothBefore _ (ascii "/app") appCmd appCmd_ok roomMoment (by decide) (bothBefore_sent _ _)
  generalize hh : bothBefore ++ [(roomMoment, Visit.ssh 0 (.data 0 _))] = h' at this
  cases this with
  | http g ha =>
    have := List.append_cancel_left hh
    cases this
  | ssh i ch ha hl =>
    have := List.append_cancel_left hh
    simp only [List.cons.injEq, Prod.mk.injEq, Visit.ssh.injEq, SshEvent.data.injEq, true_and, and_true] at this
    obtain ⟨rfl, rfl⟩ := this
    exact ⟨_, ha, hl⟩

def textRepo : List (Nat × Spec.Obj) := objectsAt polyExt 12 (textObjects signedRest)

theorem textRepo_mem {p : Nat × Spec.Obj} (hp : p ∈ textRepo) :
    p.2 = (.commit, (textCommit signedRest).text) ∨ p.2 = (.tree, textTree) ∨ p.2 = (.blob, ascii "one") := by
  obtain ⟨a, m, b, e, rfl⟩ := mem_objectsAt.1 hp
  have : m ∈ textObjects signedRest := by rw [e]; simp
  simp only [textObjects, List.mem_cons, List.not_mem_nil, or_false] at this
  rcases this with rfl | rfl | rfl
  · exact .inl rfl
  · exact .inr (.inl rfl)
  · exact .inr (.inr rfl)

theorem textRepo_has {o : Spec.Obj} (h : metaOf polyExt o ∈ textObjects signedRest) : ∃ q ∈ textRepo, q.2 = o := by
  obtain ⟨a, b, hs⟩ := List.append_of_mem h
  exact ⟨_, mem_objectsAt.2 ⟨a, _, b, hs, rfl⟩, rfl⟩

theorem textRepo_git : Spec.GitProject polyExt textRepo (fun _ => 0) where
  kinds := fun p hp => by
    rcases textRepo_mem hp with e | e | e <;> rw [e]
    · exact .inl rfl
    · exact .inr (.inl rfl)
    · exact .inr (.inr (.inl rfl))
  commits := fun p hp ht => by
    rcases textRepo_mem hp with e | e | e <;> rw [e] at ht ⊢
    · obtain ⟨q, hq, e⟩ := textRepo_has (o := (.tree, textTree)) (.tail _ (.head _))
      exact ⟨_, textCommit_ok _, rfl, q, hq, by rw [e], by rw [e]; rfl⟩
    all_goals cases ht
  trees := fun p hp ht => by
    rcases textRepo_mem hp with e | e | e <;> rw [e] at ht ⊢
    · cases ht
    · refine ⟨textEntries, textEntries_ok, rfl, by decide, fun e he => ?_⟩
      cases List.mem_singleton.1 he
      obtain ⟨q, hq, e⟩ := textRepo_has (o := (.blob, ascii "one")) (.tail _ (.tail _ (.head _)))
      refine ⟨⟨q, hq, by rw [e], ?_⟩, fun k => absurd k (by decide)⟩
      rw [e, if_neg (by decide)]
    · cases ht
  tags := fun p hp ht => by
    rcases textRepo_mem hp with e | e | e <;> rw [e] at ht <;> cases ht

theorem textRepo_plain : ∀ p ∈ textRepo, ¬ Spec.Foreign p.2 := by
  intro p hp hf
  have := foreign_panics (X := polyExt) hf
  rcases textRepo_mem hp with e | e | e <;> rw [e] at this
  · simp only [decodeObject, metaOf, commitData_decode _ (textCommit_ok _), if_pos (show (textCommit signedRest).Plain from ⟨textPerson_plain, textPerson_plain, by decide +kernel⟩)] at this
    cases this
  · simp only [decodeObject, metaOf] at this
    rcases entries_decode textEntries textEntries_ok with ⟨_, k⟩ | ⟨⟨x, hx, k⟩, _⟩
    · rw [show decodeTree textTree = _ from k] at this
      cases this
    · cases List.mem_singleton.1 hx
      exact absurd (by decide +kernel) k
  · cases this

/-- C138: the same project with a signed merge commit and a message in ASCII, pushed over SSH: it is accepted. -/
example : ∃ pack rep, (sshStep polyExt roomMoment (runBoth demoServer .empty bothBefore).ssh 0 (.data 0 pack)).1 = [(0, rep)] ∧
    Spec.reportLines false rep = some [ascii "unpack ok\n", ascii "ok refs/heads/master" ++ [0]] := by
  have small : ∀ m ∈ textObjects signedRest, m.data.length < 2 ^ 61 := by decide +kernel
  obtain ⟨hd, h1, h2, h3⟩ := packFile_written (textObjects_new signedRest) small (by decide) (by decide) (⟨List.replicate 20 7, rfl⟩ : Hash)
  have ids : ((textObjects signedRest).map MetaData.id).Nodup := by decide +kernel
  have hpack : Spec.PackOf polyExt demoServer.D.fold (runBoth demoServer .empty bothBefore).web.db _ textRepo :=
    ⟨⟨_, _, fun _ => none, h3, by decide +kernel, (fun _ _ e => by cases e), resolves_written (fun m hm => (new_ok (textObjects_new _ m hm)).1) 12 []⟩,
      noCollision_objectsAt (textObjects_new _) (fun _ ha _ hb e => List.inj_on_of_nodup_map ids ha hb e) 12, fun p hp => by
        obtain ⟨a, m, b, e, rfl⟩ := mem_objectsAt.1 hp
        have := small m (by rw [e]; simp)
        simp only
        omega⟩
  obtain ⟨rep, hpush, hrep⟩ := C138_accepted_partial demoServer demoFold_hash (ascii "/app") bothBefore _ roomMoment bothBefore_unique rfl ⟨fun _ _ => rfl, fun _ _ => rfl, fun _ _ => rfl, fun _ _ => rfl⟩ appCmd appCmd_ok (ascii "report-status") (by decide)
    (by decide) (.inl rfl) textRepo _ hpack _ textRepo_git textRepo_plain (by decide) (bothBefore_sent _ _)
  have hside : decide (Capability.sideBand ∈ parseCapabilities (ascii "report-status") ∨ Capability.sideBand64k ∈ parseCapabilities (ascii "report-status")) = false := by
    decide +kernel
  rw [hside, show Spec.statusLine (appCmd.name ++ [0]) none = ascii "ok refs/heads/master" ++ [0] by decide] at hrep
  obtain ⟨st', k1, _⟩ := pushedAny_http appCmd_ok (by decide) (by decide) hpush
  exact ⟨_, rep, ssh_pushed (P := demoServer) appCmd_ok (by decide) (by decide) 0 bothBefore_push k1 (report_ne hrep), hrep⟩

def appPerson : Spec.Person := { name := ascii "Ada Q. Lovelace", email := ascii "ada@x.org", before := false, seconds := 1684140000, zone := ascii "+0800" }

theorem appPerson_ok : appPerson.Ok :=
  ⟨by decide, by decide, ⟨0x2B, ascii "0800", by decide, .inl rfl, by decide, by decide⟩⟩

def appData : Spec.CommitData :=
  { tree := idOf polyExt (.tree, encodeTree appItems), parents := [], author := appPerson, committer := appPerson, rest := ascii "\nparent author fix\n" }

def dataOfItem (i : TreeItem) : Spec.EntryData := { mode := i.mode, name := i.filename, id := i.id }

theorem appData_text : appData.text = appCommit.encode := by decide +kernel

theorem appEntries_mem {p : Nat × Spec.Obj} (hp : p ∈ appEntries) : metaOf polyExt p.2 ∈ appObjects := by
  obtain ⟨a, m, b, e, rfl⟩ := mem_objectsAt.1 hp
  have hm : m ∈ appObjects := by rw [e]; simp
  have e2 := (metaOf_of_new (appObjects_new m hm)).2
  simp only at e2 ⊢
  rw [e2]
  exact hm

theorem appEntries_has {o : Spec.Obj} (h : metaOf polyExt o ∈ appObjects) : ∃ q ∈ appEntries, q.2 = o := by
  obtain ⟨a, b, hs⟩ := List.append_of_mem h
  exact ⟨_, mem_objectsAt.2 ⟨a, _, b, hs, rfl⟩, rfl⟩

/-- C138: the repository of which the example of `C111_both_published_partial` speaks is such a project, so that `C138_published_partial` applies to that run. -/
theorem app_git : Spec.GitProject polyExt appEntries appDepth ∧ ∀ p ∈ appEntries, ¬ Spec.Foreign p.2 := by
  have cases5 : ∀ p ∈ appEntries, p.2 = (.commit, appCommit.encode) ∨ p.2 = (.tree, encodeTree appItems) ∨ p.2 = (.tree, encodeTree srcA) ∨ p.2 = (.blob, ascii "two") ∨
      p.2 = (.blob, ascii "one") := by
    intro p hp
    have := appEntries_mem hp
    have inj : ∀ o : Spec.Obj, metaOf polyExt p.2 = metaOf polyExt o → p.2 = o := fun o e => Prod.ext (congrArg MetaData.t e) (congrArg MetaData.data e)
    simp only [appObjects, appThin, appBlob, List.mem_append, List.mem_cons, List.not_mem_nil, or_false] at this
    rcases this with (h | h | h | h) | h
    · exact .inl (inj _ h)
    · exact .inr (.inl (inj _ h))
    · exact .inr (.inr (.inl (inj _ h)))
    · exact .inr (.inr (.inr (.inl (inj _ h))))
    · exact .inr (.inr (.inr (.inr (inj _ h))))
  have has : ∀ m ∈ appObjects, ∃ q ∈ appEntries, q.2 = (m.t, m.data) := fun m hm => appEntries_has (o := (m.t, m.data)) (by
    rw [(metaOf_of_new (appObjects_new m hm)).2]
    exact hm)
  refine ⟨⟨?_, ?_, ?_, ?_⟩, ?_⟩
  · intro p hp
    rcases cases5 p hp with e | e | e | e | e <;> rw [e] <;> simp
  · intro p hp ht
    rcases cases5 p hp with e | e | e | e | e <;> rw [e] at ht ⊢
    · obtain ⟨q, hq, e⟩ := has (metaOf polyExt (.tree, encodeTree appItems)) (by simp [appObjects, appThin])
      exact ⟨appData, ⟨appPerson_ok, appPerson_ok⟩, appData_text, q, hq, by rw [e]; rfl, by rw [e]; rfl⟩
    all_goals cases ht
  · intro p hp ht
    rcases cases5 p hp with e | e | e | e | e <;> rw [e] at ht ⊢
    · cases ht
    · refine ⟨appItems.map dataOfItem, ?_, by decide +kernel, by decide +kernel, ?_⟩
      · intro x hx
        simp only [appItems, List.map_cons, List.map_nil, List.mem_cons, List.not_mem_nil, or_false] at hx
        rcases hx with rfl | rfl
        · exact ⟨.tail _ (.head _), by decide⟩
        · exact ⟨.head _, by decide⟩
      · intro x hx
        simp only [appItems, List.map_cons, List.map_nil, List.mem_cons, List.not_mem_nil, or_false] at hx
        rcases hx with rfl | rfl
        · obtain ⟨q, hq, e⟩ := has (metaOf polyExt (.blob, ascii "two")) (by simp [appObjects, appThin])
          exact ⟨⟨q, hq, by rw [e]; rfl, by rw [e, if_neg (by decide)]; rfl⟩, fun k => absurd k (by decide)⟩
        · obtain ⟨q, hq, e⟩ := has (metaOf polyExt (.tree, encodeTree srcA)) (by simp [appObjects, appThin])
          exact ⟨⟨q, hq, by rw [e]; rfl, by rw [e, if_pos (by decide)]; rfl⟩, fun _ => by decide +kernel⟩
    · refine ⟨srcA.map dataOfItem, ?_, by decide +kernel, by decide +kernel, ?_⟩
      · intro x hx
        cases List.mem_singleton.1 hx
        exact ⟨.tail _ (.head _), by decide⟩
      · intro x hx
        cases List.mem_singleton.1 hx
        obtain ⟨q, hq, e⟩ := has appBlob (by simp [appObjects])
        exact ⟨⟨q, hq, by rw [e]; rfl, by rw [e, if_neg (by decide)]; rfl⟩, fun k => absurd k (by decide)⟩
    all_goals cases ht
  · intro p hp ht
    rcases cases5 p hp with e | e | e | e | e <;> rw [e] at ht <;> cases ht
  · intro p hp hf
    have := foreign_panics (X := polyExt) hf
    rcases cases5 p hp with e | e | e | e | e <;> rw [e] at this <;> simp only [decodeObject, metaOf] at this
    · rw [appCommit_decode] at this
      cases this
    · rw [appItems_decode] at this
      cases this
    · rw [srcA_decode] at this
      cases this
    · cases this
    · cases this

end Gust

import Verif.Props.Asked
import Verif.Props.Schema
import Verif.Props.RefOnce

/-! # C122: repositories without a branch master -/

namespace Gust

/-- What a git client makes of the list of refs (gitprotocol-pack, `advertised-refs`): a first line with the capabilities, then a line for each further ref, then a flush
packet. A list without refs is the line `capabilities^{}` alone; a ref after that line is a protocol error. -/
def Spec.clientRefs : List Spec.Pkt → Option (List (Bytes × Bytes))
  | .line first :: rest =>
    match Spec.parseFirstLine first with
    | some (id, name, _) =>
      if name = ascii "capabilities^{}" then (if rest = [.flush] then some [] else none)
      else (further rest).map ((id, name) :: ·)
    | none => none
  | _ => none
where
  further : List Spec.Pkt → Option (List (Bytes × Bytes))
    | [.flush] => some []
    | .line l :: rest =>
      match Spec.parseRefLine l with
      | some r => (further rest).map (r :: ·)
      | none => none
    | _ => none

/-- What a git client reads from the reply to `refsReq`, over HTTP: the announcement, a flush packet, the list of refs. -/
def Spec.clientHttp (t : ServiceType) (out : Bytes) : Option (List (Bytes × Bytes)) :=
  match Spec.readPkts out with
  | some (.line a :: .flush :: pkts) => if a = ascii "# service=" ++ t.display ++ ascii "\n" then Spec.clientRefs pkts else none
  | _ => none

/-- What a git client reads from the first bytes the server sends over SSH. -/
def Spec.clientSsh (out : Bytes) : Option (List (Bytes × Bytes)) := (Spec.readPkts out).bind Spec.clientRefs

/-- There is no branch master in `u` or in a directory above. -/
def Spec.NoMasterAbove (fold : Bytes → Bytes) (refs : List RefRow) (u : Bytes) : Prop :=
  ∀ r ∈ refs, Spec.isMaster fold r → ¬ Spec.DirAbove r.repoPath u

/-! ## Lemmas: what clients read -/

theorem further_lines : ∀ (lines : List Bytes) (refs : List (Bytes × Bytes)), lines.map Spec.parseRefLine = refs.map some →
    Spec.clientRefs.further (lines.map Spec.Pkt.line ++ [.flush]) = some refs
  | [], refs, h => by
    cases refs with
    | nil => rfl
    | cons => simp at h
  | l :: lines, refs, h => by
    cases refs with
    | nil => simp at h
    | cons r refs =>
      simp only [List.map_cons, List.cons.injEq] at h
      have ih := further_lines lines refs h.2
      simp only [List.map_cons, List.cons_append, Spec.clientRefs.further, h.1, ih]
      rfl

theorem clientRefs_advertised {t : ServiceType} {head : Bytes} {refs : List (Bytes × Bytes)} {pkts : List Spec.Pkt} (h : advertised t head refs pkts) :
    Spec.clientRefs pkts = if head = zeroId then (if refs = [] then some [] else none) else some ((head, ascii "HEAD") :: refs) := by
  obtain ⟨first, lines, rfl, h1, h2⟩ := h
  rw [show (Spec.Pkt.line first :: lines.map Spec.Pkt.line ++ [.flush]) = Spec.Pkt.line first :: (lines.map Spec.Pkt.line ++ [.flush]) from rfl]
  simp only [Spec.clientRefs, h1]
  by_cases hz : head = zeroId
  · have hz' : head = List.replicate 40 48 := hz
    rw [if_pos hz', if_pos rfl, if_pos hz]
    have hl : lines.length = refs.length := by simpa using congrArg List.length h2
    cases lines with
    | nil =>
      obtain rfl : refs = [] := List.eq_nil_of_length_eq_zero hl.symm
      rfl
    | cons l lines =>
      cases refs with
      | nil => simp at hl
      | cons r refs => simp
  · have hz' : ¬ head = List.replicate 40 48 := hz
    rw [if_neg hz', if_neg (by decide), if_neg hz, further_lines lines refs h2]
    rfl

theorem entryInsert_ne {α : Type} (m : List (Bytes × α)) (k : Bytes) (v : α) : entryInsert m k v ≠ [] := by
  unfold entryInsert
  split
  · rename_i h
    cases m with
    | nil => simp at h
    | cons => simp
  · simp

theorem foldl_entry_ne : ∀ (rows : List RefRow) (m : List (Bytes × Bytes)), m ≠ [] ∨ rows ≠ [] →
    rows.foldl (fun m r => entryInsert m r.refGitId r.refName) m ≠ []
  | [], m, h => by simpa using h
  | r :: rows, m, _ => by
    rw [List.foldl_cons]
    exact foldl_entry_ne rows _ (.inl (entryInsert_ne _ _ _))

theorem getRefObjectId_nil {E : SqlExt} {db : Db} {u : Bytes} : getRefObjectId E db u = [] ↔ Spec.refsAt E.fold db.refs u = [] := by
  constructor
  · intro h
    by_contra hn
    refine foldl_entry_ne _ [] (.inr ?_) h
    intro e
    have := (E.order_perm (db.refs.filter (fun r => E.fold r.repoPath == E.fold u))).length_eq
    rw [e] at this
    exact hn (by
      have h2 : db.refs.filter (fun r => E.fold r.repoPath == E.fold u) = [] := List.eq_nil_of_length_eq_zero this.symm
      rw [← h2]
      refine List.filter_congr ?_
      intro r _
      simp)
  · intro h
    have h2 : db.refs.filter (fun r => E.fold r.repoPath == E.fold u) = [] := by
      rw [← h]
      refine List.filter_congr ?_
      intro r _
      simp
    unfold getRefObjectId
    have h3 : E.order ([] : List RefRow) = [] := List.eq_nil_of_length_eq_zero (by simpa using (E.order_perm ([] : List RefRow)).length_eq)
    rw [h2, h3]
    rfl

theorem getRefObjectId_from {E : SqlExt} {db : Db} {u : Bytes} : ∀ p ∈ getRefObjectId E db u, ∃ r ∈ Spec.refsAt E.fold db.refs u, r.refGitId = p.1 ∧ r.refName = p.2 := by
  refine foldl_entry_from _ _ [] ?_ (by simp)
  intro r hr
  have := (E.order_perm _).mem_iff.1 hr
  rw [List.mem_filter, beq_iff_eq] at this
  exact refsAt_mem.2 this

/-- What a client reads when it asks for the refs of `u` and is answered. -/
theorem client_http {X : Ext} {E : SqlExt} {t : ServiceType} {db db' : Db} {u head : Bytes} (hg : getHeadObjectId X E db u = (.ok head, db'))
    (ht : ∀ r ∈ Spec.refsAt E.fold db'.refs u, Spec.RefText r) :
    Spec.clientHttp t (gitInfoRefs .http t head (getRefObjectId E db' u)) =
      if head = zeroId then (if Spec.refsAt E.fold db'.refs u = [] then some [] else none) else some ((head, ascii "HEAD") :: getRefObjectId E db' u) := by
  obtain ⟨a, b⟩ := getHead_hex hg (fun r h e => by
    have h' := ht r (refsAt_mem.2 ⟨(getHead_refs hg).1 r h, by rw [e]⟩)
    exact ⟨h'.1, h'.2.1⟩)
  obtain ⟨pkts, h1, h2⟩ := C60_advertisement_http t head (getRefObjectId E db' u) a b (by
    intro p hp
    obtain ⟨r, hr, e1, e2⟩ := getRefObjectId_from p hp
    rw [← e1, ← e2]
    exact ht r hr)
  simp only [Spec.clientHttp, h1, if_true, clientRefs_advertised h2, getRefObjectId_nil]

theorem client_ssh {X : Ext} {E : SqlExt} {t : ServiceType} {db db' : Db} {u head : Bytes} (hg : getHeadObjectId X E db u = (.ok head, db'))
    (ht : ∀ r ∈ Spec.refsAt E.fold db'.refs u, Spec.RefText r) :
    Spec.clientSsh (gitInfoRefs .ssh t head (getRefObjectId E db' u)) =
      if head = zeroId then (if Spec.refsAt E.fold db'.refs u = [] then some [] else none) else some ((head, ascii "HEAD") :: getRefObjectId E db' u) := by
  obtain ⟨a, b⟩ := getHead_hex hg (fun r h e => by
    have h' := ht r (refsAt_mem.2 ⟨(getHead_refs hg).1 r h, by rw [e]⟩)
    exact ⟨h'.1, h'.2.1⟩)
  obtain ⟨pkts, h1, h2⟩ := C60_advertisement_ssh t head (getRefObjectId E db' u) a b (by
    intro p hp
    obtain ⟨r, hr, e1, e2⟩ := getRefObjectId_from p hp
    rw [← e1, ← e2]
    exact ht r hr)
  simp only [Spec.clientSsh, h1, Option.bind_some, clientRefs_advertised h2, getRefObjectId_nil]

/-! ## Lemmas: no branch master -/

theorem dirAbove_self (u : Bytes) : Spec.DirAbove u u := .inr ⟨Iff.rfl, List.prefix_rfl⟩

theorem dirAbove_trans {a b c : Bytes} (h1 : Spec.DirAbove a b) (h2 : Spec.DirAbove b c) : Spec.DirAbove a c := by
  rcases h1 with h1 | ⟨h1, p1⟩
  · exact .inl h1
  · rcases h2 with ⟨h2, p2⟩ | ⟨h2, p2⟩
    · rw [p2] at p1
      exact .inl ⟨fun e => h2 (h1.1 e), List.prefix_nil.1 p1⟩
    · exact .inr ⟨h1.trans h2, p1.trans p2⟩

theorem getHead_noMaster {X : Ext} {E : SqlExt} {db : Db} {u : Bytes} (h : Spec.NoMasterAbove E.fold db.refs u) : getHeadObjectId X E db u = (.ok zeroId, db) := by
  unfold getHeadObjectId
  rw [List.find?_eq_none.2, List.find?_eq_none.2]
  · intro r hr hs
    obtain ⟨h1, _, h2⟩ := mem_searchRefs.1 hr
    exact h r h1 h2 (above_of_startsWith hs)
  · intro r hr hs
    obtain ⟨h1, _, h2⟩ := mem_searchRefs.1 hr
    rw [beq_iff_eq] at hs
    exact h r h1 h2 (hs ▸ dirAbove_self u)

/-- A row after a command is the row of the command or an old row, maybe with another id. -/
theorem handleRefs_named (E : SqlExt) (cmd : RefCommand) (repo : Bytes) (db : Db) : ∀ r ∈ (handleRefs E cmd repo db).2.refs,
    (r.repoPath = repo ∧ r.refName = cmd.refName) ∨ ∃ r' ∈ db.refs, r'.repoPath = r.repoPath ∧ r'.refName = r.refName := by
  intro r h
  unfold handleRefs at h
  split at h
  · rcases insertRefs_mem E _ _ r h with h | ⟨b, hb, h⟩
    · exact .inr ⟨r, h, rfl, rfl⟩
    · exact .inl (by rw [mem_chunks_one hb h]; exact ⟨rfl, rfl⟩)
  · exact .inr ⟨r, h, rfl, rfl⟩
  · unfold updateRefs at h
    split at h
    · rename_i i _
      split at h
      · simp only at h
        obtain ⟨k, hk, e⟩ := List.mem_iff_getElem.1 h
        rw [List.getElem_modify] at e
        rw [List.length_modify] at hk
        refine .inr ⟨db.refs[k], List.getElem_mem _, ?_⟩
        rw [← e]
        split <;> exact ⟨rfl, rfl⟩
      · exact .inr ⟨r, h, rfl, rfl⟩
    · exact .inr ⟨r, h, rfl, rfl⟩

/-- A row made when a directory is asked for comes from a branch master of a directory above. -/
theorem getHead_named (X : Ext) (E : SqlExt) (path : Bytes) (db : Db) : ∀ r ∈ (getHeadObjectId X E db path).2.refs,
    r ∈ db.refs ∨ (r.repoPath = path ∧ ∃ r' ∈ db.refs, Spec.isMaster E.fold r' ∧ pathStartsWith path r'.repoPath = true) := by
  intro r h
  rcases (getHead_refsOf X E path db).2 r h with hr | hp
  · exact .inl hr
  unfold getHeadObjectId at h
  split at h
  · exact .inl h
  · split at h
    · rename_i r' hr'
      have hm := mem_searchRefs.1 (List.mem_of_find?_eq_some hr')
      exact .inr ⟨hp, r', hm.1, hm.2.2, List.find?_some (p := fun r : RefRow => pathStartsWith path r.repoPath) hr'⟩
    · exact .inl h

theorem getHead_keepsNone {X : Ext} {E : SqlExt} {db : Db} {u : Bytes} (a : Bytes) (h : Spec.NoMasterAbove E.fold db.refs u) :
    Spec.NoMasterAbove E.fold (getHeadObjectId X E db a).2.refs u := by
  intro r hr hm ha
  rcases getHead_named X E a db r hr with hr | ⟨e, r', h1, h2, h3⟩
  · exact h r hr hm ha
  · rw [e] at ha
    exact h r' h1 h2 (dirAbove_trans (above_of_startsWith h3) ha)

theorem handleRefs_keepsNone {E : SqlExt} {db : Db} {u a : Bytes} {cmd : RefCommand} (hc : Spec.DirAbove a u → E.fold cmd.refName ≠ E.fold (ascii "refs/heads/master"))
    (h : Spec.NoMasterAbove E.fold db.refs u) : Spec.NoMasterAbove E.fold (handleRefs E cmd a db).2.refs u := by
  intro r hr hm ha
  rcases handleRefs_named E cmd a db r hr with ⟨e1, e2⟩ | ⟨r', h1, h2, h3⟩
  · unfold Spec.isMaster at hm
    rw [e1] at ha
    rw [e2] at hm
    exact hc ha hm
  · refine h r' h1 ?_ (by rw [h2]; exact ha)
    unfold Spec.isMaster at hm ⊢
    rw [h3]
    exact hm

theorem effect_keepsNone {X : Ext} {E : SqlExt} {fuel : Nat} {a : Bytes} {S : Bytes → Prop} {db db' : Db} {u : Bytes} (he : DbEffect X E fuel a S db db')
    (hS : ∀ file, S file → ¬ Spec.DirAbove a u) (h : Spec.NoMasterAbove E.fold db.refs u) : Spec.NoMasterAbove E.fold db'.refs u := by
  cases he with
  | same => exact h
  | head => exact getHead_keepsNone a h
  | push file p _ _ => rw [savePackfile_refs]; exact h
  | pushRef file p cmd hs _ =>
    refine handleRefs_keepsNone (fun ha => absurd ha (hS file hs)) ?_
    rw [savePackfile_refs]
    exact h

/-! ## Histories -/

/-- The request or message carries no pack for the repository `u` or a directory above it. -/
def Spec.NoPackAbove (u : Bytes) (s : Both) : Visit → Prop
  | .http r => ∀ a, route r.method r.path r.service = .receivePack a → ¬ Spec.DirAbove a u
  | .ssh i (.data _ bytes) => ∀ p, s.link i = .ready (some p) → p.service = .receivePack → Spec.DirAbove p.path u → (ascii "PACK").isPrefixOf bytes = false
  | .ssh _ _ => True

/-- Histories of both servers during which nobody pushes a branch that the database takes for master to the repository `u` or a directory above it: any requests and
messages that carry no pack for these, and pushes of one other branch. -/
inductive Spec.NeverMaster (P : ServerExt) (u : Bytes) : BothHist → Prop
  | start : NeverMaster P u []
  | visit {h : BothHist} {m : Moment} {v : Visit} : NeverMaster P u h → m.sql.fold = P.D.fold → Spec.NoPackAbove u (runBoth P .empty h) v → NeverMaster P u (h ++ [(m, v)])
  | push {h h' : BothHist} {a : Bytes} {c : Spec.PushCmd} {caps pack rep : Bytes} {m : Moment} : NeverMaster P u h → m.sql.fold = P.D.fold → c.Ok → caps.length ≤ 4000 →
      (∀ x ∈ caps, x.toNat < 128) → (ascii "PACK").isPrefixOf pack = true → P.D.fold (c.name ++ [0]) ≠ P.D.fold (ascii "refs/heads/master") →
      Spec.PushedAny P a c caps pack rep m h h' → NeverMaster P u h'

theorem visit_keepsNone {P : ServerExt} {u : Bytes} {m : Moment} {s : Both} {v : Visit} (hm : m.sql.fold = P.D.fold) (hv : Spec.NoPackAbove u s v)
    (h : Spec.NoMasterAbove P.D.fold s.web.db.refs u) : Spec.NoMasterAbove P.D.fold (bothStep P m s v).web.db.refs u := by
  rw [← hm] at h ⊢
  by_cases hq : ∃ i ch bytes p, v = .ssh i (.data ch bytes) ∧ s.link i = .ready (some p) ∧ p.service = .receivePack ∧ Spec.DirAbove p.path u
  · obtain ⟨i, ch, bytes, p, rfl, h1, h2, h3⟩ := hq
    have h4 := hv p h1 h2 h3
    have e : (bothStep P m s (.ssh i (.data ch bytes))).web.db = s.web.db := by
      show (sshLinkStep P.X m s.web.db (s.link i) (.data ch bytes)).2.2 = s.web.db
      rw [h1]
      simp only [sshLinkStep, sshData, h2, gitReceiveDb, h4]
      rfl
    rw [e]
    exact h
  · rcases both_effect P m s v with e | ⟨a, _, he⟩
    · rw [e]
      exact h
    · refine effect_keepsNone he ?_ h
      intro file hs ha
      cases v with
      | http r => exact hv a hs.1 ha
      | ssh i e =>
        cases e with
        | data ch bytes =>
          obtain ⟨_, p, h1, h2, h3⟩ := hs
          exact hq ⟨i, ch, bytes, p, rfl, h1, h3, by rw [h2]; exact ha⟩
        | auth => exact hs
        | exec => exact hs

theorem neverMaster_none {P : ServerExt} {u : Bytes} {h : BothHist} (hh : Spec.NeverMaster P u h) : Spec.NoMasterAbove P.D.fold (runBoth P .empty h).web.db.refs u := by
  induction hh with
  | start => intro r hr; cases hr
  | visit _ hm hv ih => rw [runBoth_concat]; exact visit_keepsNone hm hv ih
  | push _ hm hc hcaps hx hpack hname hpush ih =>
    obtain ⟨st', e1, e2, _⟩ := pushedAny_http hc hcaps hx hpush
    rw [push_answer _ _ _ _ hc _ hcaps hx _ hpack] at e1
    obtain ⟨p, db1, h1, h2, h3, _⟩ := receiveData_ok rfl (Res.unwrap_eq_ok.1 e1)
    simp only at h1 h2 h3
    rw [e2]
    have h4 := congrArg Prod.snd h3
    simp only at h4
    rw [← h4, ← hm]
    refine handleRefs_keepsNone (fun _ => by rw [hm]; exact hname) ?_
    have h5 := congrArg (fun x : Res Unit × Db => x.2.refs) h2
    simp only [savePackfile_refs] at h5
    rw [← h5, hm]
    exact ih

/-! ## C122 -/

/-- **C122 is false**, over HTTP, whatever the database does: a repository with refs that has no branch master, nor has a directory above it, is answered with a list of refs
that a git client refuses, before a fetch and before a push. So it is after every history of both servers during which nobody pushes master there, with any other branches pushed.
(The refs can be told in one line each.) -/
theorem C122_unreadable_false (P : ServerExt) (u g : Bytes) (hu : Spec.CleanUrl u) (hg : g = [] ∨ g = ascii ".git") (h : BothHist) (hh : Spec.NeverMaster P u h) (m : Moment)
    (hm : m.sql.fold = P.D.fold) (t : ServiceType) (hne : Spec.refsAt P.D.fold (runBoth P .empty h).web.db.refs u ≠ [])
    (ht : ∀ r ∈ Spec.refsAt P.D.fold (runBoth P .empty h).web.db.refs u, Spec.RefText r) :
    ∃ out, serve P m (runBoth P .empty h).web (Spec.refsReq (u ++ g) t) = (.reply (.ok (.bytes out)), (runBoth P .empty h).web) ∧ Spec.clientHttp t out = none := by
  have hn := neverMaster_none hh
  rw [← hm] at hn hne ht
  have hr : route .get (u ++ g ++ ascii "/info/refs") (some t.display) = .infoRefs u t := route_discover hu hg t
  have hz := getHead_noMaster (X := P.X) hn
  have ha : advertise P.X m.sql .http t (runBoth P .empty h).web.db u =
      (.ok (gitInfoRefs .http t zeroId (getRefObjectId m.sql (runBoth P .empty h).web.db u)), (runBoth P .empty h).web.db) := by
    simp only [advertise, hz]
  refine ⟨gitInfoRefs .http t zeroId (getRefObjectId m.sql (runBoth P .empty h).web.db u), ?_, ?_⟩
  · unfold serve
    simp only [Spec.refsReq, hr, ha]
    rfl
  · rw [client_http hz ht, if_pos rfl, if_neg hne]

/-- What is sent when such a repository is named over SSH. -/
theorem ssh_noMaster {X : Ext} {m : Moment} {s : SshState} {i ch : Nat} {t : ServiceType} {u : Bytes} {p : Option SshProto} (hs : (0x20 : UInt8) ∉ u) (hb : isBoundary u 0 = true)
    (hl : s.link i = .ready p) (hz : getHeadObjectId X m.sql s.db u = (.ok zeroId, s.db)) :
    (sshStep X m s i (.exec ch (Spec.sshAsk t u))).1 = if utf8Valid (gitInfoRefs .ssh t zeroId (getRefObjectId m.sql s.db u)) = true
      then Res.sent ch id (.ok (gitInfoRefs .ssh t zeroId (getRefObjectId m.sql s.db u))) else [] := by
  have hc : sshCommand (Spec.sshAsk t u) = .ok (u, t) := C56_ssh_partial t u hs hb
  simp only [sshStep, hl, sshLinkStep, sshExec, hc, advertise, hz, Res.bind_ok]
  split <;> rfl

/-- **C122 is false** over SSH as well: whatever the server sends when such a repository is named, a git client refuses. -/
theorem C122_ssh_false (P : ServerExt) (u : Bytes) (hs : (0x20 : UInt8) ∉ u) (hb : isBoundary u 0 = true) (h : BothHist) (hh : Spec.NeverMaster P u h) (m : Moment)
    (hm : m.sql.fold = P.D.fold) (t : ServiceType) (hne : Spec.refsAt P.D.fold (runBoth P .empty h).web.db.refs u ≠ [])
    (ht : ∀ r ∈ Spec.refsAt P.D.fold (runBoth P .empty h).web.db.refs u, Spec.RefText r) (i ch : Nat) :
    ∀ q ∈ (sshStep P.X m (runBoth P .empty h).ssh i (.exec ch (Spec.sshAsk t u))).1, Spec.clientSsh q.2 = none := by
  have hn := neverMaster_none hh
  rw [← hm] at hn hne ht
  have hz := getHead_noMaster (X := P.X) hn
  have key : Spec.clientSsh (gitInfoRefs .ssh t zeroId (getRefObjectId m.sql (runBoth P .empty h).web.db u)) = none := by
    rw [client_ssh hz ht, if_pos rfl, if_neg hne]
  intro q hq
  cases hl : (runBoth P .empty h).ssh.link i with
  | fresh => simp only [sshStep, hl] at hq; cases hq
  | hung => simp only [sshStep, hl] at hq; cases hq
  | closed => simp only [sshStep, hl] at hq; cases hq
  | ready p =>
    rw [ssh_noMaster hs hb hl hz] at hq
    split at hq
    · simp only [Res.sent] at hq
      split at hq
      · cases hq
      · rw [List.mem_singleton.1 hq]
        exact key
    · cases hq

/-- **C122 (partial)** A git client that asks for the refs of a repository with a branch master reads all of them and HEAD; one that asks for a repository without refs, with no
master above it, reads that there are none. (Missing from the full claim: repositories with refs but without master, see `C122_unreadable_false`. The refs have different
ids, see C52.) -/
theorem C122_readable_partial (P : ServerExt) (u g : Bytes) (hu : Spec.CleanUrl u) (hb : (0x5c : UInt8) ∉ u) (hg : g = [] ∨ g = ascii ".git") (s : ServerState) (m : Moment)
    (hm : m.sql.fold = P.D.fold) (t : ServiceType) :
    (Spec.HasMaster P.D.fold s.db u → (∀ r ∈ s.db.refs, r.repoPath = u → r.refGitId ≠ zeroId) → ((Spec.refsAt P.D.fold s.db.refs u).map RefRow.refGitId).Nodup →
      (∀ r ∈ Spec.refsAt P.D.fold s.db.refs u, Spec.RefText r) →
      ∃ out r refs, serve P m s (Spec.refsReq (u ++ g) t) = (.reply (.ok (.bytes out)), s) ∧ Spec.clientHttp t out = some ((r.refGitId, ascii "HEAD") :: refs) ∧
        r ∈ s.db.refs ∧ r.repoPath = u ∧ Spec.isMaster P.D.fold r ∧ refs.Perm ((Spec.refsAt P.D.fold s.db.refs u).map (fun r => (r.refGitId, r.refName)))) ∧
    (Spec.NoMasterAbove P.D.fold s.db.refs u → Spec.refsAt P.D.fold s.db.refs u = [] →
      ∃ out, serve P m s (Spec.refsReq (u ++ g) t) = (.reply (.ok (.bytes out)), s) ∧ Spec.clientHttp t out = some []) := by
  constructor
  · intro h1 h2 h3 h4
    obtain ⟨out, r, refs, k1, ⟨pkts, k2, k3⟩, k4, k5, k6, k7⟩ := shown_master hu hb hg t m hm s h1 h3 h4
    refine ⟨out, r, refs, k1, ?_, k4, k5, k6, k7⟩
    simp only [Spec.clientHttp, k2, if_true, clientRefs_advertised k3, if_neg (h2 r k4 k5)]
  · intro hn he
    rw [← hm] at hn he
    have hr : route .get (u ++ g ++ ascii "/info/refs") (some t.display) = .infoRefs u t := route_discover hu hg t
    have hz := getHead_noMaster (X := P.X) hn
    have ha : advertise P.X m.sql .http t s.db u = (.ok (gitInfoRefs .http t zeroId (getRefObjectId m.sql s.db u)), s.db) := by
      simp only [advertise, hz]
    refine ⟨gitInfoRefs .http t zeroId (getRefObjectId m.sql s.db u), ?_, ?_⟩
    · unfold serve
      simp only [Spec.refsReq, hr, ha]
      rfl
    · rw [client_http hz (by rw [he]; intro r hr; cases hr), if_pos rfl, if_pos he]

/-! ## An example -/

/-- A branch main at some id. -/
def mainCmd : Spec.PushCmd := { old := zeroId, new := List.replicate 40 0x62, name := ascii "refs/heads/main" }

theorem mainCmd_ok : mainCmd.Ok := by
  refine ⟨by decide, by decide, by decide, by decide, by decide, by decide, by decide⟩

/-- A branch main is pushed to an empty server. -/
theorem main_pushed : ∃ (pack rep : Bytes) (s : ServerState), Spec.NeverMaster demoServer (ascii "/app")
      [(demoMoment, .http (Spec.pushReq (ascii "/app") (Spec.pushBody mainCmd [] (ascii "report-status") pack)))] ∧
    serve demoServer demoMoment .empty (Spec.pushReq (ascii "/app") (Spec.pushBody mainCmd [] (ascii "report-status") pack)) = (.reply (.ok (.bytes rep)), s) ∧
    s.db.refs = [{ repoPath := ascii "/app", refName := mainCmd.name ++ [0], refGitId := mainCmd.new }] := by
  obtain ⟨pack, rep, s', h0, h1, h2⟩ := demo_create app_url (g := []) (.inl rfl) .empty mainCmd mainCmd_ok rfl
  rw [List.append_nil] at h1
  have hpush : Spec.PushedAny demoServer (ascii "/app") mainCmd (ascii "report-status") pack rep demoMoment []
      ([] ++ [(demoMoment, .http (Spec.pushReq (ascii "/app" ++ []) (Spec.pushBody mainCmd [] (ascii "report-status") pack)))]) :=
    .http [] [] app_url (.inl rfl) (by rw [List.append_nil]; exact congrArg Prod.fst h1)
  rw [List.append_nil, List.nil_append] at hpush
  exact ⟨pack, rep, s', .push .start rfl mainCmd_ok (by decide) (by decide) h0 (by decide +kernel) hpush, h1, h2⟩

/-- The row of the pushed branch main. -/
theorem main_at {refs : List RefRow} (h : refs = [{ repoPath := ascii "/app", refName := mainCmd.name ++ [0], refGitId := mainCmd.new }]) :
    Spec.refsAt demoServer.D.fold refs (ascii "/app") ≠ [] ∧ ∀ r ∈ Spec.refsAt demoServer.D.fold refs (ascii "/app"), Spec.RefText r := by
  have e : Spec.refsAt demoServer.D.fold refs (ascii "/app") = [{ repoPath := ascii "/app", refName := mainCmd.name ++ [0], refGitId := mainCmd.new }] := by
    rw [h]; decide +kernel
  rw [e]
  refine ⟨by simp, fun r hr => ?_⟩
  rw [List.mem_singleton.1 hr]
  exact ⟨by decide +kernel, by decide +kernel, by decide +kernel, by decide +kernel⟩

/-- A branch main is pushed to an empty server, which reports success; a git client can neither clone the repository nor push to it. -/
theorem C122_main_false : ∃ (P : ServerExt) (m : Moment) (u : Bytes) (c : Spec.PushCmd) (pack rep : Bytes), c.Ok ∧ c.name = ascii "refs/heads/main" ∧ Spec.CleanUrl u ∧
    (serve P m .empty (Spec.pushReq u (Spec.pushBody c [] (ascii "report-status") pack))).1 = .reply (.ok (.bytes rep)) ∧
    ∀ t : ServiceType, ∃ out s, serve P m (serve P m .empty (Spec.pushReq u (Spec.pushBody c [] (ascii "report-status") pack))).2 (Spec.refsReq u t) =
      (.reply (.ok (.bytes out)), s) ∧ Spec.clientHttp t out = none := by
  obtain ⟨pack, rep, s', hh, h1, h2⟩ := main_pushed
  have hw : (runBoth demoServer .empty [(demoMoment, .http (Spec.pushReq (ascii "/app") (Spec.pushBody mainCmd [] (ascii "report-status") pack)))]).web = s' :=
    congrArg Prod.snd h1
  refine ⟨demoServer, demoMoment, ascii "/app", mainCmd, pack, rep, mainCmd_ok, rfl, app_url, congrArg Prod.fst h1, fun t => ?_⟩
  obtain ⟨out, k1, k2⟩ := C122_unreadable_false demoServer (ascii "/app") [] app_url (.inl rfl) _ hh demoMoment rfl t (by rw [hw]; exact (main_at h2).1)
    (by rw [hw]; exact (main_at h2).2)
  rw [hw, List.append_nil] at k1
  rw [h1]
  exact ⟨out, s', k1, k2⟩

/-- Then a client connects over SSH: it is sent a list of refs that it refuses. -/
example : ∃ (h : BothHist) (out : Bytes), Spec.NeverMaster demoServer (ascii "/app") h ∧
    (sshStep demoServer.X demoMoment (runBoth demoServer .empty h).ssh 1 (.exec 0 (Spec.sshAsk .uploadPack (ascii "/app")))).1 = [(0, out)] ∧ Spec.clientSsh out = none := by
  obtain ⟨pack, rep, s', hh, h1, h2⟩ := main_pushed
  obtain ⟨h, e⟩ : ∃ h : BothHist, h = [(demoMoment, .http (Spec.pushReq (ascii "/app") (Spec.pushBody mainCmd [] (ascii "report-status") pack)))] := ⟨_, rfl⟩
  have hw : (runBoth demoServer .empty h).web = s' ∧ (runBoth demoServer .empty h).link 1 = .fresh := by
    rw [e]
    exact ⟨congrArg Prod.snd h1, rfl⟩
  rw [← e] at hh
  have hh2 := hh.visit (m := demoMoment) (v := .ssh 1 (.auth [] [])) rfl trivial
  have hw2 : (runBoth demoServer .empty (h ++ [(demoMoment, .ssh 1 (.auth [] []))])).web.db = s'.db ∧
      (runBoth demoServer .empty (h ++ [(demoMoment, .ssh 1 (.auth [] []))])).link 1 = .ready none := by
    rw [runBoth_concat]
    constructor
    · show (sshLinkStep demoServer.X demoMoment (runBoth demoServer .empty h).web.db ((runBoth demoServer .empty h).link 1) (.auth [] [])).2.2 = _
      rw [hw.2, hw.1]
      rfl
    · rw [bothStep_link, hw.2]
      rfl
  generalize h ++ [(demoMoment, .ssh 1 (.auth [] []))] = h' at hh2 hw2
  have key := C122_ssh_false demoServer (ascii "/app") (by decide) (by decide) h' hh2 demoMoment rfl .uploadPack (by rw [hw2.1]; exact (main_at h2).1)
    (by rw [hw2.1]; exact (main_at h2).2) 1 0
  have hz := getHead_noMaster (X := demoServer.X) (E := demoMoment.sql) (neverMaster_none hh2)
  have hr : getRefObjectId demoMoment.sql (runBoth demoServer .empty h').ssh.db (ascii "/app") = [(mainCmd.new, mainCmd.name ++ [0])] := by
    show getRefObjectId demoMoment.sql (runBoth demoServer .empty h').web.db (ascii "/app") = _
    unfold getRefObjectId
    rw [hw2.1, h2]
    decide +kernel
  have hs := ssh_noMaster (X := demoServer.X) (m := demoMoment) (s := (runBoth demoServer .empty h').ssh) (i := 1) (ch := 0) (t := .uploadPack) (u := ascii "/app") (by decide) (by decide)
    hw2.2 hz
  rw [hr, if_pos (by decide +kernel), Res.sent, if_neg (by decide +kernel)] at hs
  exact ⟨h', _, hh2, hs, key (0, _) (by rw [hs]; exact List.mem_singleton.2 rfl)⟩

/-- The example of a repository with master, and of one that nobody has pushed to. -/
example : (∃ s out head refs, serve demoServer demoMoment s (Spec.refsReq (ascii "/app") .uploadPack) = (.reply (.ok (.bytes out)), s) ∧
      Spec.clientHttp .uploadPack out = some ((head, ascii "HEAD") :: refs) ∧ refs.length = 1) ∧
    ∃ out, serve demoServer demoMoment .empty (Spec.refsReq (ascii "/app") .receivePack) = (.reply (.ok (.bytes out)), .empty) ∧ Spec.clientHttp .receivePack out = some [] := by
  constructor
  · obtain ⟨_, _, s, _, _, h3⟩ := demo_app
    have eat : Spec.refsAt demoServer.D.fold s.db.refs (ascii "/app") = [masterRow] := by rw [h3]; decide +kernel
    have h := (C122_readable_partial demoServer (ascii "/app") [] app_url (by decide) (.inl rfl) s demoMoment rfl .uploadPack).1 (app_hasMaster h3) (by
        rw [h3]
        intro r hr _
        rw [List.mem_singleton.1 hr]
        decide +kernel)
      (by rw [eat]; simp) (by rw [eat]; intro r hr; rw [List.mem_singleton.1 hr]; exact masterRow_text)
    obtain ⟨out, r, refs, k1, k2, _, _, _, k3⟩ := h
    rw [List.append_nil] at k1
    rw [eat] at k3
    exact ⟨s, out, _, refs, k1, k2, by rw [k3.length_eq]; rfl⟩
  · have h := (C122_readable_partial demoServer (ascii "/app") [] app_url (by decide) (.inl rfl) .empty demoMoment rfl .receivePack).2 (by intro r hr; cases hr) rfl
    rw [List.append_nil] at h
    exact h

end Gust

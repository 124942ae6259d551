import Verif.Props.Both
import Verif.Props.PublishBoth
import Verif.Props.Tags
import Verif.Props.Options

/-! # C149: fetching into a clone that exists, over either server -/

namespace Gust

open Spec (nodeObj StoreReach commitsAt InRepo)

/-! ## Spec -/

/-- How a client reads the reply to a fetch in which it listed ids that it has: lines `ACK <id> common` and `ACK <id> ready`, then a line that starts with `ACK` and has neither word, then
the packets of the side-band up to the end. It gets the ids called common and the pack. -/
def Spec.readFetchFuel : Nat → Bytes → Option (List Bytes × Bytes)
  | 0, _ => none
  | n + 1, b =>
    match Spec.readPkt b with
    | some (.line l, rest) =>
      if l.take 4 = ascii "ACK " then
        if l.drop 44 = ascii " common\n" then (Spec.readFetchFuel n rest).map (fun r => ((l.drop 4).take 40 :: r.1, r.2))
        else if l.drop 44 = ascii " ready\n" then Spec.readFetchFuel n rest
        else
          match Spec.demux rest with
          | some (pack, []) => some ([], pack)
          | _ => none
      else none
    | _ => none

def Spec.readFetch (out : Bytes) : Option (List Bytes × Bytes) := Spec.readFetchFuel (out.length + 1) out

/-! ## Reading the reply -/

theorem ackLine_parts (id suf : Bytes) (h : id.length = 40) :
    (ackLine id suf).take 4 = ascii "ACK " ∧ (ackLine id suf).drop 44 = ascii " " ++ suf ++ ascii "\n" ∧ ((ackLine id suf).drop 4).take 40 = id := by
  have e : ackLine id suf = ascii "ACK " ++ (id ++ (ascii " " ++ suf ++ ascii "\n")) := by simp [ackLine]
  have e4 : (ascii "ACK ").length = 4 := by decide
  have t2 : (ackLine id suf).drop 4 = id ++ (ascii " " ++ suf ++ ascii "\n") := by rw [e]; exact List.drop_left' e4
  refine ⟨by rw [e]; exact List.take_left' e4, ?_, by rw [t2]; exact List.take_left' h⟩
  rw [show (44 : Nat) = 4 + 40 from rfl, ← List.drop_drop, t2, List.drop_left' h]

/-- A line with `common` or `ready`. -/
def GoesOn (l : Bytes) : Prop := ∃ id, id.length = 40 ∧ (l = ackLine id (ascii "common") ∨ l = ackLine id (ascii "ready"))

theorem haveAcks_goOn (St : FetchStore) {hs : List Bytes} (hl : ∀ h ∈ hs, h.length = 40) : ∀ l ∈ haveAcks St hs, GoesOn l := by
  intro l h
  obtain ⟨x, hx, h⟩ := List.mem_flatMap.1 h
  split at h
  · rw [List.mem_singleton.1 h]
    exact ⟨x, hl x hx, .inl rfl⟩
  · cases h

theorem wantAcks_goOn (St : FetchStore) (nd : Bool) {hs : List Bytes} (hl : ∀ h ∈ hs, h.length = 40) : ∀ l ∈ wantAcks St nd hs, GoesOn l := by
  intro l h
  obtain ⟨x, hx, h⟩ := List.mem_flatMap.1 h
  rcases List.mem_append.1 h with h | h <;> split at h
  · rw [List.mem_singleton.1 h]
    exact ⟨x, hl x hx, .inl rfl⟩
  · cases h
  · rw [List.mem_singleton.1 h]
    exact ⟨x, hl x hx, .inr rfl⟩
  · cases h

theorem readFetchFuel_stream {last tail pack : Bytes} (hlast : ∃ id, id.length = 40 ∧ last = ackLine id []) (hd : Spec.demux tail = some (pack, [])) :
    ∀ (ls : List Bytes) (n : Nat), ls.length < n → (∀ l ∈ ls, GoesOn l) →
      Spec.readFetchFuel n (Spec.stream (ls.map .line) ++ (Spec.frame (.line last) ++ tail)) = some (Spec.commonIds (ls.map .line), pack)
  | [], n + 1, _, _ => by
    obtain ⟨id, hid, rfl⟩ := hlast
    obtain ⟨p1, p2, _⟩ := ackLine_parts id [] hid
    have hfit : (ackLine id []).length ≤ 65531 := ackLine_fits _ _ (by omega) (by decide)
    rw [Spec.readFetchFuel, List.map_nil, Spec.stream, List.flatMap_nil, List.nil_append, readPkt_frame (.line _) _ hfit]
    simp only [p1, p2, if_true]
    rw [if_neg (by decide), if_neg (by decide), hd]
    rfl
  | l :: ls, n + 1, hn, hg => by
    have ih := readFetchFuel_stream hlast hd ls n (by simpa using hn) (fun x hx => hg x (.tail _ hx))
    obtain ⟨id, hid, e⟩ := hg l (.head _)
    have hfit : l.length ≤ 65531 := by rcases e with rfl | rfl <;> exact ackLine_fits _ _ (by omega) (by decide)
    have hs : Spec.stream ((l :: ls).map .line) ++ (Spec.frame (.line last) ++ tail) =
        Spec.frame (.line l) ++ (Spec.stream (ls.map .line) ++ (Spec.frame (.line last) ++ tail)) := by simp [Spec.stream]
    rw [hs, Spec.readFetchFuel, readPkt_frame (.line _) _ hfit]
    rcases e with rfl | rfl
    · obtain ⟨p1, p2, p3⟩ := ackLine_parts id (ascii "common") hid
      simp only [p1, p2, p3, if_true, ih]
      rw [if_pos (by decide), List.map_cons, Spec.commonIds, p1, p2, p3, if_pos ⟨rfl, by decide⟩]
      rfl
    · obtain ⟨p1, p2, p3⟩ := ackLine_parts id (ascii "ready") hid
      simp only [p1, p2, if_true, ih]
      rw [if_neg (by decide), if_pos (by decide), List.map_cons, Spec.commonIds, p1, p2, if_neg (by rintro ⟨_, e⟩; exact absurd e (by decide))]

theorem asks_multi {ls : List Spec.ReqLine} (hask : Spec.Asks ls (ascii "multi_ack_detailed")) : Capability.multiAckDetailed ∈ requestCaps ls := by
  obtain ⟨tail, words, q1, q2, q3⟩ := hask
  unfold requestCaps
  rw [q1]
  rcases q3 with q3 | q3
  · exact (C21_capabilities_iff _ _ q2 _).2 ⟨_, q3, [], [], .nil, .nil, by rfl⟩
  · exact (C21_capabilities_iff _ _ q2 _).2 ⟨_, q3, [], [10], .nil, .cons (.tab_to_cr 10 (by decide) (by decide)) .nil, by rfl⟩

/-- The reply to a fetch, when the pack can be made; otherwise there is none. -/
theorem httpUploadPack_multi {St : FetchStore} {ord : List Bytes → List Bytes} (hord : ∀ l x, x ∈ ord l ↔ x ∈ l) {cut : Bytes → List Bytes} (hcut : Spec.CutOk cut)
    {ls : List Spec.ReqLine} (h : ∀ l ∈ ls, l.Ok) {t : Bytes} (ht : t.length ≤ 65000) (rest : Bytes) (hh : Spec.haveIds ls ≠ []) (hask : Capability.multiAckDetailed ∈ requestCaps ls)
    (hband : Spec.AsksBand (Spec.askedFor ls)) :
    ∃ w v, (∀ x, x ∈ w ↔ x ∈ Spec.wantIds ls) ∧ (∀ file, St.incPack w v = .ok file → ∃ out ids, httpUploadPack St ord cut (doneBody ls t rest) = .ok out ∧
        Spec.readFetch out = some (ids, file) ∧ ∀ id, id ∈ ids ↔ id ∈ Spec.wantIds ls ++ Spec.haveIds ls ∧ St.known id = true) ∧
      ((∀ file, St.incPack w v ≠ .ok file) → ∀ out, httpUploadPack St ord cut (doneBody ls t rest) ≠ .ok out) := by
  obtain ⟨s, hw, hv, hc, e⟩ := httpUploadPack_done St ord cut ls h t rest ht
  have hcap : Capability.multiAckDetailed ∈ s.caps := by rw [hc]; exact hask
  have hne : ord s.have_ ≠ [] := by
    intro e0
    apply hh
    rw [List.eq_nil_iff_forall_not_mem] at e0 ⊢
    exact fun x hx => e0 x ((hord _ x).2 ((hv x).2 hx))
  obtain ⟨lw, lh⟩ := reqIds_length ls h
  have hw' : ∀ x ∈ ord s.want, x.length = 40 := fun x hx => lw x ((hw x).1 ((hord _ x).1 hx))
  have hh' : ∀ x ∈ ord s.have_, x.length = 40 := fun x hx => lh x ((hv x).1 ((hord _ x).1 hx))
  obtain ⟨a1, _⟩ := haveAcks_ids St _ hh'
  obtain ⟨b1, _⟩ := wantAcks_ids St (decide (Capability.noDone ∈ s.caps)) _ hw'
  have hack : (ackLine hardCodedAck []).length ≤ 65531 := ackLine_fits _ _ (by decide) (by decide)
  refine ⟨ord s.want, ord s.have_, fun x => by rw [hord, hw], fun file hf => ?_, fun hf out hout => ?_⟩
  · obtain ⟨dm, _⟩ := C17_sideband s.caps (by rw [hc, requestCaps_asked]; exact (asksBand_iff _).1 hband) file (cut file) (hcut file).1 (hcut file).2
    have eq : httpUploadPack St ord cut (doneBody ls t rest) = .ok (Spec.stream ((haveAcks St (ord s.have_) ++ wantAcks St (decide (Capability.noDone ∈ s.caps)) (ord s.want)).map .line) ++
        (Spec.frame (.line (ackLine hardCodedAck [])) ++ sendPack s.caps (cut file))) := by
      rw [e]
      simp only [fetchAnswer, if_neg hne, if_pos hcap, hf, Res.unwrap_ok, Res.bind_ok, Res.pure_eq]
      rw [hardCoded_line, addPktLine_frame _ _ hack, foldl_addPktLine _ _ b1, foldl_addPktLine _ _ a1, List.nil_append, List.map_append, stream_append]
      simp
    refine ⟨_, _, eq, readFetchFuel_stream ⟨hardCodedAck, by decide, rfl⟩ dm _ _ ?_ ?_, fun id => ?_⟩
    · have := stream_length ((haveAcks St (ord s.have_) ++ wantAcks St (decide (Capability.noDone ∈ s.caps)) (ord s.want)).map .line)
      simp only [List.length_map, List.length_append] at this ⊢
      omega
    · intro l hl
      rcases List.mem_append.1 hl with hl | hl
      · exact haveAcks_goOn St hh' l hl
      · exact wantAcks_goOn St _ hw' l hl
    · rw [List.map_append, commonIds_append, List.mem_append, haveAcks_common St _ hh', wantAcks_common St _ _ hw', hord, hord, hw, hv, List.mem_append]
      tauto
  · rw [e] at hout
    simp only [fetchAnswer, if_neg hne, if_pos hcap, Res.bind_eq_ok, Res.unwrap_eq_ok] at hout
    obtain ⟨_, ⟨file, hf', _⟩, _⟩ := hout
    exact hf file hf'

theorem httpUploadPack_step {St : FetchStore} {ord : List Bytes → List Bytes} (hord : ∀ l x, x ∈ ord l ↔ x ∈ l) {cut : Bytes → List Bytes} (hcut : Spec.CutOk cut)
    {ls : List Spec.ReqLine} (h : ∀ l ∈ ls, l.Ok) {t : Bytes} (ht : t.length ≤ 65000) (rest : Bytes) (hh : Spec.haveIds ls ≠ []) (hask : Spec.Asks ls (ascii "multi_ack_detailed"))
    (hband : Spec.AsksBand (Spec.askedFor ls)) :
    ∃ w v, (∀ x, x ∈ w ↔ x ∈ Spec.wantIds ls) ∧ (∀ file, St.incPack w v = .ok file → ∃ out ids, httpUploadPack St ord cut (doneBody ls t rest) = .ok out ∧
        Spec.readFetch out = some (ids, file) ∧ ∀ id, id ∈ ids ↔ id ∈ Spec.wantIds ls ++ Spec.haveIds ls ∧ St.known id = true) ∧
      ((∀ file, St.incPack w v ≠ .ok file) → ∀ out, httpUploadPack St ord cut (doneBody ls t rest) ≠ .ok out) :=
  httpUploadPack_multi hord hcut h ht rest hh (asks_multi hask) hband

theorem httpUploadPack_inc {St : FetchStore} {ord : List Bytes → List Bytes} (hord : ∀ l x, x ∈ ord l ↔ x ∈ l) {cut : Bytes → List Bytes} (hcut : Spec.CutOk cut)
    {ls : List Spec.ReqLine} (h : ∀ l ∈ ls, l.Ok) {t : Bytes} (ht : t.length ≤ 65000) (rest : Bytes) (hh : Spec.haveIds ls ≠ []) (hask : Spec.Asks ls (ascii "multi_ack_detailed"))
    (hband : Spec.AsksBand (Spec.askedFor ls)) {Q : Bytes → Prop} (hinc : ∀ w v, (∀ x, x ∈ w ↔ x ∈ Spec.wantIds ls) → ∃ file, St.incPack w v = .ok file ∧ Q file) :
    ∃ out ids file, httpUploadPack St ord cut (doneBody ls t rest) = .ok out ∧ Spec.readFetch out = some (ids, file) ∧ Q file ∧
      ∀ id, id ∈ ids ↔ id ∈ Spec.wantIds ls ++ Spec.haveIds ls ∧ St.known id = true := by
  obtain ⟨w, v, hw, h1, _⟩ := httpUploadPack_step (St := St) hord hcut h ht rest hh hask hband
  obtain ⟨file, f1, f2⟩ := hinc w v hw
  obtain ⟨out, ids, o1, o2, o3⟩ := h1 file f1
  exact ⟨out, ids, file, o1, o2, f2, o3⟩

/-! ## What both servers keep -/

/-- Every stored commit is stored under its own id, and everything can be read. -/
theorem both_commit_ids (P : ServerExt) (h : BothHist) : CommitIds P.X (runBoth P .empty h).web.db := by
  have push : ∀ {m : Moment} {a file : Bytes} {p : Pack} {db : Db}, decodePack P.X (getHashObject P.X m.sql db) m.fuel file = .ok p → Readable db →
      Readable (savePackfile m.sql m.fuel p a db).2 := by
    intro m a file p db hd hr
    obtain ⟨rows, h1, h2, _, h4⟩ := push_effect hd m.sql m.fuel a db
    refine ⟨?_, ?_⟩
    · intro n hn
      rw [h1] at hn
      rcases List.mem_append.1 hn with hn | hn
      · exact hr.nodes n hn
      · obtain ⟨o, _, _, e, _⟩ := h2 n hn
        exact ⟨_, e⟩
    · intro c hc
      rcases h4 c hc with hc | ⟨_, _, o, c', _, _, e, e2, _⟩
      · exact hr.commits c hc
      · exact ⟨c', by rw [e, e2]⟩
  have step : ∀ (h : BothHist) (s : Both), Readable s.web.db → CommitIds P.X s.web.db → CommitIds P.X (runBoth P s h).web.db := by
    intro h
    induction h with
    | nil => exact fun _ _ hs => hs
    | cons q h ih =>
      intro s hr hs
      have both : Readable (bothStep P q.1 s q.2).web.db ∧ CommitIds P.X (bothStep P q.1 s q.2).web.db := by
        rcases both_effect P q.1 s q.2 with e | ⟨a, _, he⟩
        · rw [e]
          exact ⟨hr, hs⟩
        · generalize (bothStep P q.1 s q.2).web.db = db' at he ⊢
          cases he with
          | same => exact ⟨hr, hs⟩
          | head =>
            refine ⟨getHead_readable hr, ?_⟩
            unfold getHeadObjectId
            split
            · exact hs
            · split
              · exact generateChild_commit_ids hr hs
              · exact hs
          | push file p _ hd => exact ⟨push hd hr, push_commit_ids hd _ _ _ hs⟩
          | pushRef file p cmd _ hd =>
            obtain ⟨k1, k2⟩ := handleRefs_only q.1.sql cmd a (savePackfile q.1.sql q.1.fuel p a s.web.db).2
            have k := push (a := a) hd hr
            refine ⟨⟨by rw [k1]; exact k.nodes, by rw [k2]; exact k.commits⟩, ?_⟩
            unfold CommitIds
            rw [k2]
            exact push_commit_ids hd _ _ _ hs
      exact ih _ both.1 both.2
  exact step h _ empty_readable (by intro r hr; cases hr)

/-! ## Files of a tree -/

/-- Two sets of objects of which the second has everything that is at certain ids in the first, with nothing missing in the first. -/
theorem FileAt.same_of {find find' : Hash → Option MetaData} {R : Hash → Prop}
    (hR : ∀ (t : MetaData) items i, R t.id → find t.id = some t → t.t = .tree → decodeTree t.data = .ok items → i ∈ items → R i.id)
    (hs : ∀ o, R o.id → find o.id = some o → find' o.id = some o) (hall : ∀ h, R h → ∃ o, find o.id = some o ∧ o.id = h) {h : Hash} (hr : R h)
    (path : List Bytes) (mode data : Bytes) : Spec.FileAt find h path mode data ↔ Spec.FileAt find' h path mode data := by
  constructor
  · intro hf
    induction hf with
    | file t b items i ht h1 h2 h3 h4 e h5 h6 => exact .file t b items i (hs t hr ht) h1 h2 h3 h4 e (hs b (by rw [← e]; exact hR t items i hr ht h1 h2 h3) h5) h6
    | dir t items i path mode data ht h1 h2 h3 h4 _ ih => exact .dir t items i path mode data (hs t hr ht) h1 h2 h3 h4 (ih (hR t items i hr ht h1 h2 h3))
  · intro hf
    have back : ∀ o, R o.id → find' o.id = some o → find o.id = some o := by
      intro o hr ho
      obtain ⟨x, hx, e⟩ := hall _ hr
      have := hs x (by rw [e]; exact hr) hx
      rw [e, ho] at this
      cases this
      exact hx
    induction hf with
    | file t b items i ht h1 h2 h3 h4 e h5 h6 =>
      have ht' := back t hr ht
      exact .file t b items i ht' h1 h2 h3 h4 e (back b (by rw [← e]; exact hR t items i hr ht' h1 h2 h3) h5) h6
    | dir t items i path mode data ht h1 h2 h3 h4 _ ih =>
      have ht' := back t hr ht
      exact .dir t items i path mode data ht' h1 h2 h3 h4 (ih (hR t items i hr ht' h1 h2 h3))

/-- What a push leaves: a row for everything reachable in the pack. -/
theorem pushed_nodeRows {P : ServerExt} {u : Bytes} {c : Spec.PushCmd} (hc : c.Ok) {caps : Bytes} (hl : caps.length ≤ 4000) (hx : ∀ x ∈ caps, x.toNat < 128)
    {pack rep : Bytes} (hpack : (ascii "PACK").isPrefixOf pack = true) {m : Moment} {db : Db} {st' : PushState Db} (hrun : StoreRun P.X P.D.fold u db) (hf : m.sql.fold = P.D.fold)
    (hpush : httpReceivePack (mysqlPush P.X m.sql m.fuel) { caps := [], commands := [], path := u, db := db } (Spec.pushBody c [] caps pack) = .ok (rep, st'))
    {p : Pack} (hdec : decodePack P.X (getHashObject P.X m.sql db) m.fuel pack = .ok p) :
    ∀ h, Spec.PackReach p.result.hashObject h → ∃ n ∈ st'.db.nodes, n.gitId = Hash.toPlainStr h := by
  have hrun' : StoreRun P.X m.sql.fold u db := by rw [hf]; exact hrun
  obtain ⟨p', db1, d1, d2, d3, _⟩ := push_run hrun' hc hl hx hpack hpush
  rw [hdec] at d1
  cases d1
  obtain ⟨rows, s0, _, _, s2⟩ := C48_stored_partial hdec m.sql m.fuel u _ _ d2
  intro h hh
  obtain ⟨r, hr, e⟩ := s2 h hh
  exact ⟨r, by rw [d3, s0]; exact List.mem_append_right _ hr, e⟩

/-- What the pack of a fetch has, when the repository has all of another pack: the files of its wanted commits. -/
theorem inc_files {X : Ext} {E : SqlExt} {u : Bytes} {db : Db} (hrun : StoreRun X E.fold u db) (hun : UniqueIds X db)
    (hfold : ∀ a b : Hash, E.fold (Hash.toPlainStr a) = E.fold (Hash.toPlainStr b) → a = b) (hfit : FitsPack X db) {fuel : Nat} (hfuel : db.nodes.length ≤ fuel)
    {find : Hash → Option MetaData} (hin : ∀ o, find o.id = some o → o.t = .commit ∨ Spec.PackReach find o.id → ∃ x, InRepo E.fold db u x ∧ o = metaOf X x)
    (hall : ∀ h, Spec.PackReach find h → ∃ o, find o.id = some o ∧ o.id = h) (hrow : ∀ h, Spec.PackReach find h → ∃ n ∈ db.nodes, n.gitId = Hash.toPlainStr h)
    {want have_ : List Bytes} (hw : ∃ o, find o.id = some o ∧ o.t = .commit ∧ Hash.toPlainStr o.id ∈ want) :
    ∃ file, getIncPack X E fuel db u want have_ = .ok file ∧ ∀ St fuel, ∃ q, decodePack X St (fuel + 1) file = .ok q ∧
      ∀ o co, find o.id = some o → o.t = .commit → Commit.decode o.data = .ok co → Hash.toPlainStr o.id ∈ want →
        ∀ path mode data, Spec.FileAt find co.treeId path mode data ↔ Spec.FileAt q.result.hashObject co.treeId path mode data := by
  have inv := storeRun_inv hrun hun
  have commitRow : ∀ o, find o.id = some o → o.t = .commit → ∃ r ∈ commitsAt E.fold db.commits u, o = metaOf X (.commit, r.data) := by
    intro o ho ht
    obtain ⟨x, hx, e⟩ := hin o ho (.inl ht)
    cases hx with
    | commit r hr => exact ⟨r, hr, e⟩
    | node r c y n => 
      rw [e] at ht
      exact absurd ht (by unfold nodeObj; split <;> simp [metaOf])
  have nodeRow : ∀ o, find o.id = some o → Spec.PackReach find o.id → ∃ n ∈ db.nodes, o = metaOf X (nodeObj n) ∧ n.gitId = Hash.toPlainStr o.id := by
    intro o ho hr
    obtain ⟨n, hn, e⟩ := hrow _ hr
    obtain ⟨x, hx, e'⟩ := hin o ho (.inr hr)
    have : x = nodeObj n := by
      refine hun _ _ (inRepo_stored hx) (.inl ⟨n, hn, rfl⟩) (Hash.toPlainStr_injective ?_)
      rw [← inv.id n hn, e, e']
      rfl
    exact ⟨n, hn, by rw [← this]; exact e', e⟩
  have hdeep : ∀ r ∈ commitsAt E.fold db.commits u, ∀ c, Commit.decode r.data = .ok c → Spec.NestedWithin db.nodes fuel c.treeId := fun _ hr' _ hc => inv.nested hr' hc hfuel
  obtain ⟨o0, w1, w2, w3⟩ := hw
  obtain ⟨r0, hr0, e0⟩ := commitRow o0 w1 w2
  obtain ⟨file, ms, f1, f2, f3⟩ := C50_sent_partial X E u db hrun hun hfold hfit fuel hdeep want have_ r0 hr0 (by rw [e0] at w3; exact w3)
  refine ⟨file, f1, fun St fuel => ?_⟩
  obtain ⟨q, q1, _, q2⟩ := f2.2 St fuel
  refine ⟨q, q1, fun o co ho ht hco hwt => ?_⟩
  obtain ⟨r, hr, er⟩ := commitRow o ho ht
  have hco' : Commit.decode r.data = .ok co := by rw [er] at hco; exact hco
  refine FileAt.same_of (R := fun x => Spec.PackReach find x ∧ StoreReach db.nodes co.treeId x) ?_ ?_ (fun x hx => hall x hx.1) ⟨.commit o co ho ht hco, .refl⟩
  · rintro t items i ⟨a, b⟩ h1 h2 h3 h4
    obtain ⟨n, hn, e, eg⟩ := nodeRow t h1 a
    have k : nodeObj n = (.tree, t.data) := by
      have : t.t = (nodeObj n).1 := congrArg MetaData.t e
      have k2 : t.data = (nodeObj n).2 := congrArg MetaData.data e
      rw [h2] at this
      exact Prod.ext this.symm k2.symm
    have kt : n.nodeType = ascii "tree" ∧ n.data = t.data := by
      unfold nodeObj at k
      split at k
      · rename_i hty
        exact ⟨hty, (Prod.mk.inj k).2⟩
      · cases k
    exact ⟨.item t items i a h1 h2 h3 h4, .item n t.id items i b hn eg kt.1 (by rw [kt.2]; exact h3) h4⟩
  · rintro x ⟨a, b⟩ hx
    obtain ⟨n, hn, e, eg⟩ := nodeRow x hx a
    exact (q2 _ _).2 ⟨(f3 x).2 ⟨nodeObj n, .node r co x.id n hr (by rw [er] at hwt; exact hwt) hco' b hn eg, e⟩, rfl⟩

/-! ## C149 -/

/-- **C149 (partial)** Both servers run on one database that was empty at the start; anybody has done anything; a push of one ref is answered over HTTP or over SSH; anybody does anything
again. Then a client that has something already asks for a pushed commit (with `multi_ack_detailed` and a side-band option). The fetch is answered, over HTTP and on every SSH session that is
open for the repository with the same bytes, and the client can read the answer: the ids called common are exactly those that it named and that are stored, and the pack has exactly the files
of the wanted commit, in the directories where the pushing client had them. (Missing from the full claim: the commit itself, see `C149_no_commit_false`; the rest as for C115.) -/
theorem C149_fetched_partial (P : ServerExt) (hfold : ∀ a b : Hash, P.D.fold (Hash.toPlainStr a) = P.D.fold (Hash.toPlainStr b) → a = b) (u : Bytes)
    (c : Spec.PushCmd) (hc : c.Ok) (caps : Bytes) (hcaps : caps.length ≤ 4000) (hascii : ∀ x ∈ caps, x.toNat < 128)
    (pack : Bytes) (hpack : (ascii "PACK").isPrefixOf pack = true) (rep : Bytes) (m1 m2 : Moment) (h h' h2 : BothHist)
    (hpush : Spec.PushedAny P u c caps pack rep m1 h h') (hac : ∀ n rows, m1.sql.acceptCommits n rows = true)
    (p : Pack) (hdec : decodePack P.X (getHashObject P.X m1.sql (runBoth P .empty h).web.db) m1.fuel pack = .ok p)
    (hfl : Spec.SameFoldAny P.D.fold (h' ++ h2)) (hm2 : m2.sql.fold = P.D.fold) (hab : Spec.NoneAboveAny P.D.fold u (h' ++ h2))
    (hun : UniqueIds P.X (runBoth P .empty (h' ++ h2)).web.db) (hfit : FitsPack P.X (runBoth P .empty (h' ++ h2)).web.db)
    (hfuel : (runBoth P .empty (h' ++ h2)).web.db.nodes.length ≤ m2.fuel)
    (hord : ∀ l x, x ∈ m2.ord l ↔ x ∈ l) (hcut : Spec.CutOk m2.cut) (ls : List Spec.ReqLine) (hls : ∀ l ∈ ls, l.Ok) (t rest : Bytes) (ht : t.length ≤ 65000)
    (hhave : Spec.haveIds ls ≠ []) (hask : Spec.Asks ls (ascii "multi_ack_detailed")) (hband : Spec.AsksBand (Spec.askedFor ls))
    (hwant : ∃ o, p.result.hashObject o.id = some o ∧ o.t = .commit ∧ Hash.toPlainStr o.id ∈ Spec.wantIds ls) :
    ∃ out ids file, (∀ g, Spec.CleanUrl u → (g = [] ∨ g = ascii ".git") →
        (serve P m2 (runBoth P .empty (h' ++ h2)).web (Spec.fetchReq (u ++ g) (doneBody ls t rest))).1 = .reply (.ok (.bytes out))) ∧
      (∀ i ch, Spec.Opened P u i (h' ++ h2) → (sshStep P.X m2 (runBoth P .empty (h' ++ h2)).ssh i (.data ch (doneBody ls t rest))).1 = [(ch, out)]) ∧
      Spec.readFetch out = some (ids, file) ∧
      (∀ x : Hash, Hash.toPlainStr x ∈ ids ↔ Hash.toPlainStr x ∈ Spec.wantIds ls ++ Spec.haveIds ls ∧ Spec.HasCommit P.X (runBoth P .empty (h' ++ h2)).web.db x) ∧
      ∀ St fuel, ∃ q, decodePack P.X St (fuel + 1) file = .ok q ∧
        ∀ o co, p.result.hashObject o.id = some o → o.t = .commit → Commit.decode o.data = .ok co → Hash.toPlainStr o.id ∈ Spec.wantIds ls →
          ∀ path mode data, Spec.FileAt p.result.hashObject co.treeId path mode data ↔ Spec.FileAt q.result.hashObject co.treeId path mode data := by
  obtain ⟨st', e1, e2, v, e3⟩ := pushedAny_http hc hcaps hascii hpush
  have hsub : ∀ x ∈ h, x ∈ h' ++ h2 := fun x hx => by rw [e3]; simp [hx]
  have hrun := (runBoth_inv P u h (fun p hp => hfl p (hsub p hp)) (fun p hp q hq => hab p (hsub p hp) q (hsub q hq))).2.2
  have hend := (runBoth_inv P u _ hfl hab).2.2
  have ext := runBoth_extends P h2 (runBoth P .empty h')
  rw [← runBoth_append, e2] at ext
  have hm1 : m1.sql.fold = P.D.fold := hfl (m1, v) (by rw [e3]; simp)
  have rows := pushed_nodeRows hc hcaps hascii hpack hrun hm1 e1 hdec
  obtain ⟨p', d1, d2, d3⟩ := pushed_inRepo hc hcaps hascii hpack hrun hm1 hac e1 ext hun
  rw [hdec] at d1
  cases d1
  have hids := both_commit_ids P (h' ++ h2)
  rw [← hm2] at hend hfold d2
  obtain ⟨out, ids, file, k1, k2, k3, k4⟩ := httpUploadPack_inc (St := mysqlFetch P.X m2.sql m2.fuel (runBoth P .empty (h' ++ h2)).web.db u) hord hcut hls ht rest hhave hask hband
    (fun w v hwv => inc_files (have_ := v) hend hun hfold hfit hfuel d2 d3 (fun x hx => by
      obtain ⟨n, hn, e⟩ := rows x hx
      exact ⟨n, ext.nodes n hn, e⟩) (by
      obtain ⟨o, o1, o2, o3⟩ := hwant
      exact ⟨o, o1, o2, (hwv _).2 o3⟩) |>.imp fun file hf => ⟨hf.1, (fun St fuel => (hf.2 St fuel).imp fun q hq => ⟨hq.1, fun o co a b c d => hq.2 o co a b c ((hwv _).2 d)⟩ :
        ∀ St fuel, ∃ q, decodePack P.X St (fuel + 1) file = .ok q ∧
        ∀ o co, p.result.hashObject o.id = some o → o.t = .commit → Commit.decode o.data = .ok co → Hash.toPlainStr o.id ∈ Spec.wantIds ls →
          ∀ path mode data, Spec.FileAt p.result.hashObject co.treeId path mode data ↔ Spec.FileAt q.result.hashObject co.treeId path mode data)⟩)
  refine ⟨out, ids, file, fun g hu hg => ?_, fun i ch hop => ?_, k2, fun x => ?_, k3⟩
  · simp only [serve, Spec.fetchReq, route_fetch hu hg, k1, Res.outcome]
  · rw [opened_sent hop (fun l x => (hord l x).1), k1]
    refine if_neg ?_
    intro e
    have e : out = [] := e
    rw [e] at k2
    cases k2
  · rw [k4, known_hash hfold hids]

/-- **C149 is false** for the commits: whatever was pushed, and whatever a client that has something already asks for, no answer brings a commit; with the objects of the pack
alone nothing can be checked out. -/
theorem C149_no_commit_false (P : ServerExt) (hfold : ∀ a b : Hash, P.D.fold (Hash.toPlainStr a) = P.D.fold (Hash.toPlainStr b) → a = b) (u : Bytes) (h : BothHist) (m : Moment)
    (hfl : Spec.SameFoldAny P.D.fold h) (hm : m.sql.fold = P.D.fold) (hab : Spec.NoneAboveAny P.D.fold u h)
    (hun : UniqueIds P.X (runBoth P .empty h).web.db) (hfit : FitsPack P.X (runBoth P .empty h).web.db) (hord : ∀ l x, x ∈ m.ord l ↔ x ∈ l) (hcut : Spec.CutOk m.cut)
    (ls : List Spec.ReqLine) (hls : ∀ l ∈ ls, l.Ok) (t rest : Bytes) (ht : t.length ≤ 65000)
    (hhave : Spec.haveIds ls ≠ []) (hask : Spec.Asks ls (ascii "multi_ack_detailed")) (hband : Spec.AsksBand (Spec.askedFor ls))
    (out : Bytes) (hout : Spec.FetchedAny P u (doneBody ls t rest) out m h) :
    ∃ ids file, Spec.readFetch out = some (ids, file) ∧ ∀ St fuel, ∃ q, decodePack P.X St (fuel + 1) file = .ok q ∧
      (∀ x o, q.result.hashObject x = some o → o.t ≠ .commit) ∧ ∀ x path mode data, ¬ Spec.CheckedOut q.result.hashObject x path mode data := by
  have hend := (runBoth_inv P u _ hfl hab).2.2
  rw [← hm] at hend hfold
  have hout := fetchedAny_http (fun l x => (hord l x).1) hout
  obtain ⟨w, v, hw, h1, h2⟩ := httpUploadPack_step (St := mysqlFetch P.X m.sql m.fuel (runBoth P .empty h).web.db u) hord hcut hls ht rest hhave hask hband
  by_cases hf : ∃ file, (mysqlFetch P.X m.sql m.fuel (runBoth P .empty h).web.db u).incPack w v = .ok file
  · obtain ⟨file, hf⟩ := hf
    obtain ⟨out', ids, o1, o2, _⟩ := h1 file hf
    rw [hout] at o1
    cases o1
    obtain ⟨ms, f1, f2⟩ := C50_no_commit_sent_false P.X m.sql u _ hend hun hfold hfit m.fuel w v file hf
    refine ⟨ids, file, o2, fun St fuel => ?_⟩
    obtain ⟨q, q1, _, q2⟩ := f1.2 St fuel
    have key : ∀ x o, q.result.hashObject x = some o → o.t ≠ .commit := fun x o ho => f2 o ((q2 _ _).1 ho).1
    refine ⟨q, q1, key, ?_⟩
    rintro x path mode data ⟨o, c, _, ho, ht, _⟩
    exact key _ _ ho ht
  · exact absurd hout (h2 (fun file hf' => hf ⟨file, hf'⟩) out)

/-- **C149 (partial)** If the repository has none of the wanted commits, the fetch is not answered: over HTTP the connection is dropped, over SSH nothing is sent. This is so in every state of the two
servers. (Missing from the full claim: a message that says why; requests without ids that the client has, see `C149_unknown_false`.) -/
theorem C149_refused_partial (P : ServerExt) (u : Bytes) (h : BothHist) (m : Moment) (hord : ∀ l x, x ∈ m.ord l ↔ x ∈ l)
    (ls : List Spec.ReqLine) (hls : ∀ l ∈ ls, l.Ok) (t rest : Bytes) (ht : t.length ≤ 65000) (hhave : Spec.haveIds ls ≠ []) (hask : Spec.Asks ls (ascii "multi_ack_detailed"))
    (hno : ∀ data, InRepo m.sql.fold (runBoth P .empty h).web.db u (.commit, data) → Hash.toPlainStr (idOf P.X (.commit, data)) ∉ Spec.wantIds ls) :
    (∀ g, Spec.CleanUrl u → (g = [] ∨ g = ascii ".git") → (serve P m (runBoth P .empty h).web (Spec.fetchReq (u ++ g) (doneBody ls t rest))).1 = .reply .panic) ∧
      ∀ i ch, Spec.Opened P u i h → (sshStep P.X m (runBoth P .empty h).ssh i (.data ch (doneBody ls t rest))).1 = [] := by
  have hp : httpUploadPack (mysqlFetch P.X m.sql m.fuel (runBoth P .empty h).web.db u) m.ord m.cut (doneBody ls t rest) = .panic := by
    apply fetch_unknown hord m.cut hls ht hhave hask
    intro w v hwv
    apply C50_unknown_wants
    exact fun r hr hmem => hno r.data (.commit r hr) ((hwv _).1 hmem)
  refine ⟨fun g hu hg => ?_, fun i ch hop => ?_⟩
  · have hroute : route .post (u ++ g ++ ascii "/git-upload-pack") none = .uploadPack u := route_fetch hu hg
    unfold serve
    simp only [Spec.fetchReq, hroute, hp, Res.outcome]
  · rw [opened_sent hop (fun l x => (hord l x).1), hp]
    rfl

/-- **C149 is false** for clients that have nothing yet: a request for ids that the repository does not have is answered, over both servers, with a pack that has none of them. -/
theorem C149_unknown_false (P : ServerExt) (hfold : ∀ a b : Hash, P.D.fold (Hash.toPlainStr a) = P.D.fold (Hash.toPlainStr b) → a = b) (u : Bytes) (h : BothHist) (m : Moment)
    (hfl : Spec.SameFoldAny P.D.fold h) (hm : m.sql.fold = P.D.fold) (hab : Spec.NoneAboveAny P.D.fold u h)
    (hun : UniqueIds P.X (runBoth P .empty h).web.db) (hfit : FitsPack P.X (runBoth P .empty h).web.db) (hfuel : (runBoth P .empty h).web.db.nodes.length ≤ m.fuel)
    (hsome : ∃ o, InRepo P.D.fold (runBoth P .empty h).web.db u o) (hord : ∀ l x, x ∈ m.ord l ↔ x ∈ l) (hcut : Spec.CutOk m.cut)
    (ls : List Spec.ReqLine) (t rest : Bytes) (hr : Spec.CloneReq ls t)
    (hno : ∀ o, InRepo P.D.fold (runBoth P .empty h).web.db u o → Hash.toPlainStr (idOf P.X o) ∉ Spec.wantIds ls) :
    ∃ out file, (∀ g, Spec.CleanUrl u → (g = [] ∨ g = ascii ".git") →
        (serve P m (runBoth P .empty h).web (Spec.fetchReq (u ++ g) (doneBody ls t rest))).1 = .reply (.ok (.bytes out))) ∧
      (∀ i ch, Spec.Opened P u i h → (sshStep P.X m (runBoth P .empty h).ssh i (.data ch (doneBody ls t rest))).1 = [(ch, out)]) ∧
      Spec.readClone out = some file ∧
      ∀ St fuel, ∃ q, decodePack P.X St (fuel + 1) file = .ok q ∧ ∀ x, Hash.toPlainStr x ∈ Spec.wantIds ls → q.result.hashObject x = none := by
  have hend := (runBoth_inv P u _ hfl hab).2.2
  have inv := storeRun_inv hend hun
  rw [← hm] at hend hfold hsome hno inv
  have hdeep : ∀ r ∈ commitsAt m.sql.fold (runBoth P .empty h).web.db.commits u, ∀ c, Commit.decode r.data = .ok c →
      Spec.NestedWithin (runBoth P .empty h).web.db.nodes m.fuel c.treeId := fun _ hr' _ hc => inv.nested hr' hc hfuel
  have hne : commitsAt m.sql.fold (runBoth P .empty h).web.db.commits u ≠ [] := by
    obtain ⟨o, ho⟩ := hsome
    cases ho with
    | commit r hr => exact List.ne_nil_of_mem hr
    | node r _ _ _ hr => exact List.ne_nil_of_mem hr
  obtain ⟨file, ms, c1, _⟩ := C49_clone_partial P.X m.sql u _ hend hun hfold hfit m.fuel hdeep hne
  obtain ⟨out, ho⟩ := httpUploadPack_ok (St := mysqlFetch P.X m.sql m.fuel (runBoth P .empty h).web.db u) (cut := m.cut) (rest := rest) hord hr c1
  obtain ⟨file', f1, f2⟩ := httpUploadPack_clone hord hcut hr ho
  obtain ⟨ms, k1, k2⟩ := clone_has hend hun hfold hfit rfl f1
  refine ⟨out, file', fun g hu hg => ?_, fun i ch hop => ?_, f2, fun St fuel => ?_⟩
  · simp only [serve, Spec.fetchReq, route_fetch hu hg, ho, Res.outcome]
  · rw [opened_sent hop (fun l x => (hord l x).1), ho]
    refine if_neg ?_
    intro e
    have e : out = [] := e
    rw [e] at f2
    cases f2
  · obtain ⟨q, q1, _, q2⟩ := k1.2 St fuel
    refine ⟨q, q1, fun x hx => ?_⟩
    cases hq : q.result.hashObject x with
    | none => rfl
    | some o =>
      obtain ⟨a, b⟩ := (q2 _ _).1 hq
      obtain ⟨y, y1, y2⟩ := (k2 o).1 a
      refine absurd ?_ (hno y y1)
      rw [y2] at b
      rw [show idOf P.X y = x from b]
      exact hx

end Gust

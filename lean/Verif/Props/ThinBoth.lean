import Verif.Props.PublishBoth

/-! # C80 over both servers: thin packs -/

namespace Gust

open Spec (nodeObj StoreReach commitsAt InRepo)

/-- **C80 (partial)** The same after anything done over HTTP and SSH: every well-formed pack whose deltas refer to entries before them or to trees and blobs of any repository, by whichever server
they came, is read as exactly the objects it stands for. (That the push is then answered with `ok` is C111. Missing: deltas against commits, see `C80_lost_false`.) -/
theorem C80_both_partial (P : ServerExt) (hfold : ∀ a b : Hash, P.D.fold (Hash.toPlainStr a) = P.D.fold (Hash.toPlainStr b) → a = b)
    (h : BothHist) (hu : UniqueIds P.X (runBoth P .empty h).web.db) (E : SqlExt) (hf : E.fold = P.D.fold)
    (known : Hash → Option Spec.Obj) (hk : Spec.FromRepos P.X P.D.fold (runBoth P .empty h).web.db known)
    {file : Bytes} {es : List (Nat × Spec.Entry)} {trailer : Hash} {os : List (Nat × Spec.Obj)}
    (hp : Spec.PackFile P.X.inflate file es trailer) (hr : Spec.Resolves (idOf P.X) known [] es os)
    (hcol : Spec.NoCollision (idOf P.X) os) (hcap : ∀ p ∈ os, p.2.2.length < 2 ^ 63) (h32 : ∀ p ∈ es, p.1 < 2 ^ 32) (fuel : Nat) :
    ∃ pack, decodePack P.X (getHashObject P.X E (runBoth P .empty h).web.db) (fuel + 1) file = .ok pack ∧ DecodedTo P.X pack os trailer :=
  thin_read (both_nodes P h) hu hfold hf hk hp hr hcol hcap h32 fuel

/-- **C80 is false** for commits, over HTTP and over SSH and after every history: a push whose pack begins with a delta against a commit stored on the server, by whichever server it came, is not
answered; over SSH the connection is closed or silent from then on. -/
theorem C80_lost_false (P : ServerExt) (hfold : ∀ a b : Hash, P.D.fold (Hash.toPlainStr a) = P.D.fold (Hash.toPlainStr b) → a = b)
    (u : Bytes) (h h' : BothHist) (m : Moment) (hu : UniqueIds P.X (runBoth P .empty h).web.db) (hf : m.sql.fold = P.D.fold) (h0 : 0 < m.fuel)
    (c : Spec.PushCmd) (hc : c.Ok) (caps : Bytes) (hcaps : caps.length ≤ 4000) (hascii : ∀ x ∈ caps, x.toNat < 128)
    (r : CommitRow) (hr : r ∈ (runBoth P .empty h).web.db.commits) {file delta : Bytes} {es : List (Nat × Spec.Entry)} {trailer : Hash}
    (hp : Spec.PackFile P.X.inflate file ((12, .ref (idOf P.X (.commit, r.data)) delta) :: es) trailer) (hsent : Spec.SentAny P u c caps file m h h') :
    Spec.LostAny P u c caps file m h h' := by
  have hn := both_nodes P h
  obtain ⟨fuel, hfu⟩ : ∃ fuel, m.fuel = fuel + 1 := ⟨m.fuel - 1, by omega⟩
  have hnone : getHashObject P.X m.sql (runBoth P .empty h).web.db (Hash.toPlainStr (idOf P.X (.commit, r.data))) = none := by
    unfold getHashObject
    have : (runBoth P .empty h).web.db.nodes.filter (fun n => m.sql.fold n.gitId == m.sql.fold (Hash.toPlainStr (idOf P.X (.commit, r.data)))) = [] := by
      rw [List.filter_eq_nil_iff]
      intro n hmem e
      rw [hn.id n hmem, hf] at e
      have := hu _ _ (.inl ⟨n, hmem, rfl⟩) (.inr ⟨r, hr, rfl⟩) (hfold _ _ (eq_of_beq e))
      have e1 := congrArg Prod.fst this
      simp only [nodeObj] at e1
      split at e1 <;> cases e1
    rw [this, List.length_eq_zero_iff.1 (m.sql.order_perm ([] : List NodeRow)).length_eq]
    rfl
  have hpanic := decode_unknown hp hnone fuel
  have hmagic : (ascii "PACK").isPrefixOf file = true := by
    obtain ⟨hd, s, rfl, hh, _⟩ := hp
    have e := hh.2
    match hd, e with
    | a :: b :: c :: d :: x, e =>
      simp only [List.map_cons, List.cons_append, List.cons.injEq] at e
      rw [show a = 0x50 from UInt8.toNat_inj.1 e.1, show b = 0x41 from UInt8.toNat_inj.1 e.2.1, show c = 0x43 from UInt8.toNat_inj.1 e.2.2.1,
        show d = 0x4b from UInt8.toNat_inj.1 e.2.2.2.1]
      rfl
    | [], e => simp at e
    | [_], e => simp at e
    | [_, _], e => simp at e
    | [_, _, _], e => simp at e
  refine sent_lost hc hcaps hascii hsent (.inl ?_)
  rw [push_answer _ u _ c hc caps hcaps hascii file hmagic]
  unfold receiveData
  simp only [List.getLast?_singleton, mysqlPush, hfu, hpanic]
  rfl

/-- The example server over HTTP, seen as the two servers. -/
def thinHist (pack : Bytes) : BothHist := [(demoMoment, .http (appPush pack))]

theorem thinHist_db (pack : Bytes) : (runBoth demoServer .empty (thinHist pack)).web.db = (runServer demoServer .empty [(demoMoment, appPush pack)]).db := rfl

/-- C80: after the example project has been pushed to `/app` over HTTP, a change to its file `b`, sent as a delta against what the server has, arrives as it should; one sent as a delta against the
commit is not answered. -/
example : ∃ (h : BothHist) (pack : Pack), decodePack polyExt (getHashObject polyExt demoSql (runBoth demoServer .empty h).web.db) 1
      (refPack (idOf polyExt (.blob, ascii "two")) [3, 4, 0x90, 3, 1, 33]) = .ok pack ∧
    pack.result.hashObject (idOf polyExt (.blob, ascii "two!")) = some (metaOf polyExt (.blob, ascii "two!")) ∧
    ∃ h', Spec.LostAny demoServer (ascii "/app") devCmd (ascii "report-status") (refPack (idOf polyExt (.commit, appCommit.encode)) [3, 4, 0x90, 3, 1, 33]) demoMoment h h' := by
  obtain ⟨pack, objs, hin⟩ := app_server
  rw [← thinHist_db] at objs hin
  have hk : Spec.FromRepos polyExt demoFold (runBoth demoServer .empty (thinHist pack)).web.db
      (fun h => if h = idOf polyExt (.blob, ascii "two") then some (.blob, ascii "two") else none) := by
    intro h o e
    simp only at e
    split at e
    · rename_i hh
      cases e
      exact ⟨hh.symm, .inr rfl, ascii "/app", hin (metaOf polyExt (.blob, ascii "two")) (by simp [appObjects, appThin])⟩
    · cases e
  obtain ⟨p, h1, h2⟩ := C80_both_partial demoServer demoFold_hash _ (app_unique objs) demoSql rfl _ hk (refPack_file _ [3, 4, 0x90, 3, 1, 33] (by decide))
    (.cons _ _ _ _ (.blob, ascii "two!") _ (.refOut _ _ (ascii "two") _ .blob (by simp) (by rw [if_pos rfl]) twoDelta_means) (.nil _))
    (by
      intro a ha b hb _
      rw [List.mem_singleton] at ha hb
      rw [ha, hb]) (by decide) (by decide) 0
  refine ⟨_, p, h1, (h2.byId _ _).2 ⟨_, .head _, new_metaOf polyExt (.blob, ascii "two!") rfl, rfl⟩, ?_⟩
  have hc := hin (metaOf polyExt (.commit, appCommit.encode)) (by simp [appObjects, appThin])
  rcases inRepo_stored hc with ⟨n, _, e⟩ | ⟨r, hr, e⟩
  · have e1 := congrArg Prod.fst e
    simp only [nodeObj, metaOf] at e1
    split at e1 <;> cases e1
  · have e1 : r.data = appCommit.encode := congrArg Prod.snd e
    exact ⟨_, C80_lost_false demoServer demoFold_hash (ascii "/app") _ _ demoMoment (app_unique objs) rfl (by decide) devCmd devCmd_ok (ascii "report-status") (by decide) (by decide) r hr
      (by rw [e1]; exact refPack_file _ [3, 4, 0x90, 3, 1, 33] (by decide)) (.http _ [] app_clean_url (.inl rfl))⟩

end Gust

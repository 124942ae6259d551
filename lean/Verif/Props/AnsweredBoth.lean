import Verif.Props.NestingBoth
import Verif.Props.Rounds

/-! # C92 for the two servers together

Every HTTP request is answered and no SSH message leaves its connection stuck, whichever way the data came. -/

namespace Gust

open Res

/-- **C92 (partial)** The same after any history of HTTP requests and SSH messages: every HTTP request comes to an end once the stack is deep enough. The conditions are those of
`C92_answered_partial`. -/
theorem C92_answered_both_partial (P : ServerExt) (hfold : ∀ a b : Hash, P.D.fold (Hash.toPlainStr a) = P.D.fold (Hash.toPlainStr b) → a = b)
    (h : BothHist) (hag : Spec.SentAgree P h) (m : Moment) (hm : m.sql.fold = P.D.fold) (r : HttpReq)
    (hfetch : ∀ repo, route r.method r.path r.service = .uploadPack repo → ¬ Spec.Unfinished true r.body)
    (hpush : ∀ repo, route r.method r.path r.service = .receivePack repo → Spec.NoSelfDelta P.X.inflate (Spec.packPart r.body) ∧
      ∀ fuel p, decodePack P.X (getHashObject P.X m.sql (runBoth P .empty h).web.db) fuel (Spec.packPart r.body) = .ok p → Spec.NoCycles p.result.hashObject) :
    ∃ k, ∀ fuel, k ≤ fuel → (serve P { m with fuel := fuel } (runBoth P .empty h).web r).1 ≠ .hang :=
  serve_answered P _ m r _ (C91_fetch_ends_both P hfold h hag m.sql hm) hfetch hpush

theorem link_answered {α : Type} {f : α → SshProto} {x : Res α} (h : x.halts) : x.link f ≠ .hung := by
  cases x with
  | spin => exact h.elim
  | _ => exact fun h => nomatch h

/-- The command line of an exec request is always made sense of, or the handler panics. -/
theorem sshCommand_halts (b : Bytes) : (sshCommand b).halts := by
  unfold sshCommand
  have slice : ∀ x a b, (strSlice x a b).halts := fun x a b => by unfold strSlice; split <;> trivial
  repeat' first
    | trivial
    | exact halts_unwrapOpt _
    | exact slice _ _ _
    | split
    | refine halts_bind ?_ fun _ _ => ?_

/-- **C92 (partial)** After any history of HTTP requests and SSH messages, no SSH message on a connection that is not stuck leaves it stuck once the stack is deep enough: the message is handled,
or the connection is closed after a panic. The conditions, on a data message: in a session that fetches the request does not break off behind a complete packet before it says `done`; in a
session that pushes no delta of the message names itself as its base and no directory contains itself. (Missing from the full claim: other messages, see `C92_ssh_fetch_false` and
`C92_ssh_push_false`.) -/
theorem C92_ssh_partial (P : ServerExt) (hfold : ∀ a b : Hash, P.D.fold (Hash.toPlainStr a) = P.D.fold (Hash.toPlainStr b) → a = b)
    (h : BothHist) (hag : Spec.SentAgree P h) (m : Moment) (hm : m.sql.fold = P.D.fold) (i : Nat) (hl : (runBoth P .empty h).link i ≠ .hung) (e : SshEvent)
    (hfetch : ∀ repo ch bytes, Spec.openFor i h = some (repo, .uploadPack) → e = .data ch bytes → ¬ Spec.Unfinished true bytes)
    (hpush : ∀ repo ch bytes, Spec.openFor i h = some (repo, .receivePack) → e = .data ch bytes → Spec.NoSelfDelta P.X.inflate bytes ∧
      ∀ fuel p, decodePack P.X (getHashObject P.X m.sql (runBoth P .empty h).web.db) fuel bytes = .ok p → Spec.NoCycles p.result.hashObject) :
    ∃ k, ∀ fuel, k ≤ fuel → (sshStep P.X { m with fuel := fuel } (runBoth P .empty h).ssh i e).2.link i ≠ .hung := by
  have step : ∀ fuel, (sshStep P.X { m with fuel := fuel } (runBoth P .empty h).ssh i e).2.link i =
      (sshLinkStep P.X { m with fuel := fuel } (runBoth P .empty h).web.db ((runBoth P .empty h).link i) e).2.1 := fun fuel => if_pos rfl
  simp only [step]
  have hopen := openFor_link P h i
  revert hl hopen
  generalize (runBoth P .empty h).link i = l
  intro hl hopen
  cases l with
  | hung => exact absurd rfl hl
  | closed => exact ⟨0, fun _ _ h => nomatch h⟩
  | fresh => cases e <;> exact ⟨0, fun _ _ h => nomatch h⟩
  | ready p =>
    cases e with
    | auth u s => exact ⟨0, fun _ _ h => nomatch h⟩
    | exec ch cmd =>
      refine ⟨0, fun fuel _ => ?_⟩
      show (sshExec P.X { m with fuel := fuel } (runBoth P .empty h).web.db ch cmd).2.1 ≠ .hung
      unfold sshExec
      have hs := sshCommand_halts cmd
      cases hc : sshCommand cmd with
      | ok a =>
        refine link_answered (halts_bind (advertise_halts _ _ _ _ _ _) fun b _ => ?_)
        split <;> trivial
      | spin => rw [hc] at hs; exact hs.elim
      | err e => exact fun h => nomatch h
      | panic => exact fun h => nomatch h
    | data ch bytes =>
      cases p with
      | none => exact ⟨0, fun _ _ h => nomatch h⟩
      | some p =>
        have ho := hopen p rfl
        cases hp : p.service with
        | uploadPack =>
          rw [hp] at ho
          refine ⟨(runBoth P .empty h).web.db.nodes.length + 2, fun fuel hf => ?_⟩
          simp only [sshLinkStep, sshData, hp]
          refine link_answered ?_
          have ends := C91_fetch_ends_both P hfold h hag m.sql hm fuel hf p.path
          unfold sshUploadPack
          refine halts_bind ?_ fun q _ => halts_bind (fetchAnswer_halts (ends [] []).1 (fun w v => (ends w v).2) _ _ _) fun _ _ => ?_
          · rcases C18_fetch_dichotomy bytes { want := [], have_ := [], caps := p.caps, firstLine := true } with q | q
            · exact q
            · exact absurd ((spins_exact _ _ bytes (Nat.le_refl _)).1 q) (hfetch _ ch bytes ho rfl)
          · dsimp only
            split <;> trivial
        | receivePack =>
          rw [hp] at ho
          obtain ⟨hz, hc⟩ := hpush _ ch bytes ho rfl
          obtain ⟨res, hres, heq⟩ := C31_decode_terminates_partial P.X (getHashObject P.X m.sql (runBoth P .empty h).web.db) bytes hz
          have store : ∃ k, ∀ fuel, k ≤ fuel → ∀ p, res = .ok p → ∀ path db, (savePackfile m.sql fuel p path db).1.halts := by
            cases hp : res with
            | ok p =>
              have hd := heq _ (Nat.lt_succ_self _)
              rw [hp] at hd
              obtain ⟨k, hk⟩ := savePackfile_halts hd (hc _ p hd) m.sql
              refine ⟨k, fun fuel hf p' e => ?_⟩
              cases e
              exact hk fuel hf
            | _ => exact ⟨0, fun _ _ p e => by cases e⟩
          obtain ⟨k, hk⟩ := store
          refine ⟨max k (bytes.length + 1), fun fuel hf => ?_⟩
          simp only [sshLinkStep, sshData, hp]
          refine link_answered ?_
          unfold sshReceivePack gitReceivePack
          refine halts_unwrap ?_
          split
          · have e := heq fuel (by omega)
            refine receiveData_halts (E := m.sql) (fuel := fuel) (by rw [e]; exact hres) (fun p hp => ?_)
            rw [e] at hp
            exact hk fuel (by omega) p hp
          · exact receiveCommand_halts _ _

/-- **C92 is false** for fetches over SSH: a request that breaks off behind a complete packet before it says `done` leaves the connection stuck, and nothing is sent. -/
theorem C92_ssh_fetch_false (X : Ext) (m : Moment) (s : SshState) (i ch : Nat) (p : SshProto) (hl : s.link i = .ready (some p)) (hp : p.service = .uploadPack) (bytes : Bytes)
    (hun : Spec.Unfinished true bytes) : (sshStep X m s i (.data ch bytes)).1 = [] ∧ (sshStep X m s i (.data ch bytes)).2.link i = .hung := by
  have h := unfinished_ssh (X := X) (m := m) (db := s.db) hp ch hun
  rw [← hl] at h
  unfold sshStep
  rw [h]
  exact ⟨rfl, if_pos rfl⟩

theorem selfDelta_spins (X : Ext) (St : ObjectSource) (fuel : Nat) : decodePack X St fuel selfDeltaPack = .spin := by
  have hd : selfDeltaPack.drop 12 = [0x60, 0x00] := rfl
  have hloop := C31_zero_distance_loops (X := X) (St := St) (file := selfDeltaPack) (off := 12) (n := 0)
    (r := [0x00]) (r' := []) (cache := PackCache.empty)
    (by rw [hd]; exact ⟨0x60, by decide, by decide, by decide, by decide, by decide⟩) (by decide) rfl fuel
  have hc : checkHeader selfDeltaPack = .ok (1, [0x60, 0x00]) := by decide
  rw [decodePack, hc]
  simp only [Res.bind_ok, decodeLoop, hloop, Res.bind_spin]

/-- **C92 is false** for pushes over SSH: when the commands of a push have arrived, a pack of fourteen bytes, a delta that names itself as its base, leaves the connection stuck. -/
theorem C92_ssh_push_false (X : Ext) (m : Moment) (s : SshState) (i ch : Nat) (p : SshProto) (hl : s.link i = .ready (some p)) (hp : p.service = .receivePack) (hc : p.commands ≠ []) :
    (sshStep X m s i (.data ch selfDeltaPack)).1 = [] ∧ (sshStep X m s i (.data ch selfDeltaPack)).2.link i = .hung := by
  have h : sshReceivePack (mysqlPush X m.sql m.fuel) { caps := p.caps, commands := p.commands, path := p.path, db := s.db } selfDeltaPack = .spin := by
    unfold sshReceivePack gitReceivePack
    rw [if_pos (by decide)]
    unfold receiveData
    cases hg : p.commands.getLast? with
    | none => exact absurd (List.getLast?_eq_none_iff.1 hg) hc
    | some c =>
      simp only [mysqlPush, selfDelta_spins]
      rfl
  have h2 : (sshLinkStep X m s.db (s.link i) (.data ch selfDeltaPack)).1 = [] ∧ (sshLinkStep X m s.db (s.link i) (.data ch selfDeltaPack)).2.1 = .hung := by
    simp only [hl, sshLinkStep, sshData, hp, h]
    exact ⟨rfl, rfl⟩
  exact ⟨h2.1, (if_pos rfl).trans h2.2⟩

end Gust

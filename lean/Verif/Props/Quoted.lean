import Verif.Props.OneAddress

/-! # C147 over SSH: names with spaces and quotes

A git client sends the path between single quotes; a quote or an exclamation mark in it is written `'\''` or `'\!'` (`sq_quote_buf`, quote.c of git). A shell reads
the path back from that. -/

namespace Gust

/-- The path as git clients write it, without the quotes around it. -/
def Spec.quoted : Bytes → Bytes
  | [] => []
  | c :: s => if c = 0x27 ∨ c = 0x21 then [0x27, 0x5c, c, 0x27] ++ Spec.quoted s else c :: Spec.quoted s

/-- The command line of a git client for the path. -/
def Spec.gitLine (t : ServiceType) (path : Bytes) : Bytes := t.display ++ ascii " '" ++ Spec.quoted path ++ ascii "'"

/-! ## Lemmas -/

theorem quoted_same {s : Bytes} (h : ∀ c ∈ s, c ≠ 0x27 ∧ c ≠ 0x21) : Spec.quoted s = s := by
  induction s with
  | nil => rfl
  | cons c s ih =>
    obtain ⟨h1, h2⟩ := h c (.head _)
    rw [Spec.quoted, if_neg (by simp [h1, h2]), ih fun c hc => h c (.tail _ hc)]

theorem quoted_append (a b : Bytes) : Spec.quoted (a ++ b) = Spec.quoted a ++ Spec.quoted b := by
  induction a with
  | nil => rfl
  | cons c a ih =>
    rw [List.cons_append, Spec.quoted, Spec.quoted, ih]
    split <;> simp

theorem quoted_length (s : Bytes) : s.length ≤ (Spec.quoted s).length ∧ ((∃ c ∈ s, c = 0x27 ∨ c = 0x21) → s.length < (Spec.quoted s).length) := by
  induction s with
  | nil => exact ⟨Nat.le_refl _, fun ⟨_, h, _⟩ => nomatch h⟩
  | cons c s ih =>
    rw [Spec.quoted]
    split
    · have := ih.1
      simp only [List.length_append, List.length_cons, List.length_nil]
      exact ⟨by omega, fun _ => by omega⟩
    · rename_i hc
      have := ih.1
      simp only [List.length_cons]
      refine ⟨by omega, fun ⟨x, hx, h⟩ => ?_⟩
      rcases List.mem_cons.1 hx with rfl | hx
      · exact absurd h hc
      · have := ih.2 ⟨x, hx, h⟩
        omega

theorem quoted_space {s : Bytes} (h : (0x20 : UInt8) ∉ s) : (0x20 : UInt8) ∉ Spec.quoted s := by
  induction s with
  | nil => exact h
  | cons c s ih =>
    have h1 : (0x20 : UInt8) ≠ c := fun e => h (e ▸ .head _)
    have h2 := ih fun hc => h (.tail _ hc)
    rw [Spec.quoted]
    split
    · simp only [List.cons_append, List.nil_append, List.mem_cons, not_or]
      exact ⟨by decide, by decide, h1, by decide, h2⟩
    · simp only [List.mem_cons, not_or]
      exact ⟨h1, h2⟩

theorem quoted_boundary {s : Bytes} (h : isBoundary s 0 = true) : isBoundary (Spec.quoted s) 0 = true := by
  cases s with
  | nil => exact h
  | cons c s =>
    rw [Spec.quoted]
    split
    · simp [isBoundary]
    · exact h

/-- A command line with a space in the path. -/
theorem ssh_space (t : ServiceType) (q x d : Bytes) (hx : x.length = 5) (hq : (0x20 : UInt8) ∉ q) (hs : (0x20 : UInt8) ∉ x)
    (hb : isBoundary (q ++ x) 0 = true) (hb' : isBoundary x 0 = true) :
    sshCommand (Spec.sshLine t (0x2f :: (q ++ x ++ 0x20 :: d))) = .ok (q, t) := by
  have ht : (0x20 : UInt8) ∉ t.display := by cases t <;> decide
  have hp : (0x20 : UInt8) ∉ 0x27 :: 0x2f :: (q ++ x) := by simp [hq, hs]
  have e : Spec.sshLine t (0x2f :: (q ++ x ++ 0x20 :: d)) = t.display ++ 0x20 :: ((0x27 :: 0x2f :: (q ++ x)) ++ 0x20 :: (d ++ ascii "'")) := by
    simp [Spec.sshLine, ascii]
  have hlen : (0x27 :: 0x2f :: (q ++ x)).length = q.length + 7 := by simp [hx]
  have h5 : (ascii ".git'").length = 5 := rfl
  have hslice : strSlice (0x27 :: 0x2f :: (q ++ x)) 2 (q.length + 2) = .ok q := by
    have c1 : isBoundary (0x27 :: 0x2f :: (q ++ x)) 2 = true := by
      rw [← hb]
      simp only [isBoundary, List.getElem?_cons_succ]
    have c2 : isBoundary (0x27 :: 0x2f :: (q ++ x)) (q.length + 2) = true := by
      rw [← hb']
      simp only [isBoundary, List.getElem?_cons_succ, List.getElem?_append_right (Nat.le_refl _), Nat.sub_self]
    simp only [strSlice]
    rw [if_pos ⟨by omega, by simp, c1, c2⟩]
    simp
  simp only [sshCommand, e, splitOn_append _ _ _ ht, splitOn_append _ _ _ hp, List.getElem?_cons_succ, List.getElem?_cons_zero, Res.unwrapOpt, Res.bind_ok, hlen, h5]
  rw [if_neg (by omega), show q.length + 7 - 5 = q.length + 2 by omega, hslice]
  cases t <;> rfl

/-- A command line with a space near the beginning of the path. -/
theorem ssh_space_short (t : ServiceType) (a d : Bytes) (ha : (0x20 : UInt8) ∉ a) (hl : a.length < 6) : sshCommand (Spec.sshLine t (a ++ 0x20 :: d)) = .panic := by
  have ht : (0x20 : UInt8) ∉ t.display := by cases t <;> decide
  have hp : (0x20 : UInt8) ∉ 0x27 :: a := by simp [ha]
  have e : Spec.sshLine t (a ++ 0x20 :: d) = t.display ++ 0x20 :: ((0x27 :: a) ++ 0x20 :: (d ++ ascii "'")) := by
    simp [Spec.sshLine, ascii]
  have h5 : (ascii ".git'").length = 5 := rfl
  have hlen : (0x27 :: a).length = a.length + 1 := rfl
  simp only [sshCommand, e, splitOn_append _ _ _ ht, splitOn_append _ _ _ hp, List.getElem?_cons_succ, List.getElem?_cons_zero, Res.unwrapOpt, Res.bind_ok, hlen, h5]
  by_cases h : a.length + 1 < 5
  · rw [if_pos h]
  · rw [if_neg h]
    have : strSlice (0x27 :: a) 2 (a.length + 1 - 5) = .panic := by
      simp only [strSlice]
      rw [if_neg (fun e => by omega)]
    rw [this]
    rfl

theorem gitLine_same {t : ServiceType} {s : Bytes} (h : ∀ c ∈ s, c ≠ 0x27 ∧ c ≠ 0x21) : Spec.gitLine t s = Spec.sshLine t s := by
  rw [Spec.gitLine, Spec.sshLine, quoted_same h]

/-! ## C147 -/

/-- **C147 (partial)** Over SSH a path without spaces, quotes and exclamation marks is the one the server looks for. (Missing from the full claim: paths with them, for which it is false; the slash in front, see C157.) -/
theorem C147_ssh_partial (t : ServiceType) (q : Bytes) (hs : (0x20 : UInt8) ∉ q) (hq : ∀ c ∈ q, c ≠ 0x27 ∧ c ≠ 0x21) (hb : isBoundary q 0 = true) :
    sshCommand (Spec.gitLine t (0x2f :: (q ++ ascii ".git"))) = .ok (q, t) := by
  rw [gitLine_same, C56_ssh_partial t q hs hb]
  intro c hc
  rcases List.mem_cons.1 hc with rfl | hc
  · decide
  rcases List.mem_append.1 hc with hc | hc
  · exact hq c hc
  · have : ∀ c ∈ ascii ".git", c ≠ 0x27 ∧ c ≠ 0x21 := by decide
    exact this c hc

/-- **C147 is false** over SSH for every path with a quote or an exclamation mark: the server takes the text that the client wrote for a shell as the name of the repository, which is never the name meant. -/
theorem C147_quote_false (t : ServiceType) (q : Bytes) (hs : (0x20 : UInt8) ∉ q) (hb : isBoundary q 0 = true) (hq : ∃ c ∈ q, c = 0x27 ∨ c = 0x21) :
    ∃ a, sshCommand (Spec.gitLine t (0x2f :: (q ++ ascii ".git"))) = .ok (a, t) ∧ a = Spec.quoted q ∧ a ≠ q := by
  refine ⟨Spec.quoted q, ?_, rfl, fun e => ?_⟩
  · have e : Spec.gitLine t (0x2f :: (q ++ ascii ".git")) = Spec.sshLine t (0x2f :: (Spec.quoted q ++ ascii ".git")) := by
      rw [Spec.gitLine, Spec.sshLine, Spec.quoted, if_neg (by decide), quoted_append, quoted_same (s := ascii ".git") (by decide)]
    rw [e, C56_ssh_partial t _ (quoted_space hs) (quoted_boundary hb)]
  · have := (quoted_length q).2 hq
    rw [e] at this
    omega

/-- **C147 is false** over SSH for every path with a space: whatever is stored and whoever is connected, the server does what it does for another repository, whose path is what stands before the space
without the five bytes in front of it. So asking for `/app/my notes.git` is asking for the repository `/a.git`. -/
theorem C147_space_false (X : Ext) (m : Moment) (s : SshState) (i ch : Nat) (t : ServiceType) (q x d : Bytes) (hx : x.length = 5) (hq : (0x20 : UInt8) ∉ q) (hs : (0x20 : UInt8) ∉ x)
    (hok : ∀ c ∈ q ++ x ++ 0x20 :: d, c ≠ 0x27 ∧ c ≠ 0x21) (hb : isBoundary q 0 = true) (hb1 : isBoundary (q ++ x) 0 = true) (hb2 : isBoundary x 0 = true) :
    sshStep X m s i (.exec ch (Spec.gitLine t (0x2f :: (q ++ x ++ 0x20 :: d)))) = sshStep X m s i (.exec ch (Spec.sshAsk t q)) := by
  have e1 := ssh_space t q x d hx hq hs hb1 hb2
  rw [← gitLine_same (by
    intro c hc
    rcases List.mem_cons.1 hc with rfl | hc
    · decide
    · exact hok c hc)] at e1
  have e2 : sshCommand (Spec.sshAsk t q) = .ok (q, t) := C56_ssh_partial t q hq hb
  have e : ∀ db, sshExec X m db ch (Spec.gitLine t (0x2f :: (q ++ x ++ 0x20 :: d))) = sshExec X m db ch (Spec.sshAsk t q) := by
    intro db
    simp only [sshExec, e1, e2]
  have e' : sshLinkStep X m s.db (s.link i) (.exec ch (Spec.gitLine t (0x2f :: (q ++ x ++ 0x20 :: d)))) = sshLinkStep X m s.db (s.link i) (.exec ch (Spec.sshAsk t q)) := by
    cases s.link i with
    | ready p => exact e _
    | _ => rfl
  simp only [sshStep, e']

/-- **C147 is false** over SSH: after every history, whoever asks for a path with a space, a directory of a repository or a repository, reads that it is empty, unless that other repository is in use. -/
theorem C147_space_empty_false (P : ServerExt) (h : BothHist) (hf : Spec.SameFoldAny P.D.fold h) (q x d : Bytes) (hx : x.length = 5) (hq : (0x20 : UInt8) ∉ q) (hs : (0x20 : UInt8) ∉ x)
    (hok : ∀ c ∈ q ++ x ++ 0x20 :: d, c ≠ 0x27 ∧ c ≠ 0x21) (hb : isBoundary q 0 = true) (hb1 : isBoundary (q ++ x) 0 = true) (hb2 : isBoundary x 0 = true)
    (hun : Spec.Unused P.D.fold q h) (m : Moment) (hm : m.sql.fold = P.D.fold) (t : ServiceType) (i ch : Nat) (p : Option SshProto) (hl : (runBoth P .empty h).link i = .ready p) :
    ∃ out, (sshStep P.X m (runBoth P .empty h).ssh i (.exec ch (Spec.gitLine t (0x2f :: (q ++ x ++ 0x20 :: d))))).1 = [(ch, out)] ∧ Spec.clientSsh out = some [] := by
  rw [C147_space_false P.X m _ i ch t q x d hx hq hs hok hb hb1 hb2]
  exact unused_ssh hq hb hf hun hm t ch hl

/-- **C147 is false** over SSH: a space among the first six characters of the path ends the connection. -/
theorem C147_space_short_false (X : Ext) (m : Moment) (s : SshState) (i ch : Nat) (t : ServiceType) (a d : Bytes) (ha : (0x20 : UInt8) ∉ a) (hlen : a.length < 6)
    (hok : ∀ c ∈ a ++ 0x20 :: d, c ≠ 0x27 ∧ c ≠ 0x21) (p : Option SshProto) (hl : s.link i = .ready p) :
    (sshStep X m s i (.exec ch (Spec.gitLine t (a ++ 0x20 :: d)))).1 = [] ∧ (sshStep X m s i (.exec ch (Spec.gitLine t (a ++ 0x20 :: d)))).2.link i = .closed := by
  have e1 := ssh_space_short t a d ha hlen
  rw [← gitLine_same hok] at e1
  constructor
  · simp only [sshStep, sshLinkStep, hl, sshExec, e1]
  · rw [sshStep_self, hl]
    simp only [sshLinkStep, sshExec, e1]

/-- C147: what the server makes of `/app/my notes.git`, `/app/it's.git` and `/my notes.git`. -/
example : sshCommand (Spec.gitLine .uploadPack (ascii "/app/my notes.git")) = .ok (ascii "a", .uploadPack) ∧
    sshCommand (Spec.gitLine .uploadPack (ascii "/app/it's.git")) = .ok (ascii "app/it'\\''s", .uploadPack) ∧
    sshCommand (Spec.gitLine .uploadPack (ascii "/app/my-notes.git")) = .ok (ascii "app/my-notes", .uploadPack) ∧
    sshCommand (Spec.gitLine .uploadPack (ascii "/my notes.git")) = .panic := by decide +kernel

/-- C147 over SSH: two sessions for `/app` are open; whoever asks for `/app/my notes.git` on one of them reads an empty repository. -/
example : ∃ out, (sshStep polyExt demoMoment (runBoth demoServer .empty bothBefore).ssh 1 (.exec 0 (Spec.gitLine .uploadPack (ascii "/app/my notes.git")))).1 = [(0, out)] ∧
    Spec.clientSsh out = some [] :=
  C147_space_empty_false demoServer bothBefore (fun x hx => (bothBefore_names x hx).1) (ascii "a") (ascii "pp/my") (ascii "notes.git") rfl (by decide) (by decide) (by decide) (by decide)
    (by decide) (by decide) (fun x hx b hb => by
      rw [(bothBefore_names x hx).2 b hb]
      refine ⟨show demoFold _ ≠ demoFold _ by decide, ?_⟩
      rintro (⟨_, h2⟩ | ⟨h1, _⟩)
      · revert h2
        decide +kernel
      · revert h1
        decide +kernel)
    demoMoment rfl .uploadPack 1 0 _ bothBefore_fetch

end Gust

import Verif.Model.LooseRead
import Verif.Lemmas.LfsLock
import Verif.Props.Object
import Verif.Lemmas.Pack

/-! # C112: reading one object of the object directory by its id -/

namespace Gust

namespace Spec

/-- An object directory at `.git/objects` into which the given objects, and nothing else, have been written, in this order. -/
def objectFiles (X : Ext) (ms : List MetaData) : MetaData.FS :=
  ms.foldl (fun fs m => (MetaData.writeToFile X m (ascii ".git/objects") fs).1) (fun _ => none)

/-- The objects are objects (id, size and content agree), and no two different ones have the same id. -/
structure ObjectSet (X : Ext) (ms : List MetaData) : Prop where
  objects : ∀ m ∈ ms, MetaData.new X m.t m.data = .ok m ∧ m.data.length < 2 ^ 63
  ids : ∀ a ∈ ms, ∀ b ∈ ms, a.id = b.id → a = b

end Spec

theorem written_file {X : Ext} {root : Bytes} : ∀ (l : List MetaData) (fs : MetaData.FS) (m : MetaData),
    (∀ a ∈ l, a.id = m.id → a = m) →
    (m ∈ l ∨ fs (MetaData.loosePath root m.id) = some (X.deflate m.looseBytes)) →
    (l.foldl (fun fs m => (MetaData.writeToFile X m root fs).1) fs) (MetaData.loosePath root m.id)
      = some (X.deflate m.looseBytes) := by
  intro l
  induction l with
  | nil => intro fs m _ h; simpa using h
  | cons a l ih =>
    intro fs m hc h
    simp only [List.foldl_cons]
    apply ih
    · exact fun b hb => hc b (by simp [hb])
    · by_cases hp : MetaData.loosePath root m.id = MetaData.loosePath root a.id
      · have : a = m := hc a (by simp) (loosePath_injective hp).symm
        subst this
        right; simp [MetaData.writeToFile]
      · rcases h with h | h
        · rcases List.mem_cons.1 h with rfl | h
          · exact absurd rfl hp
          · exact Or.inl h
        · right; simp [MetaData.writeToFile, hp, h]

theorem written_only {X : Ext} {root : Bytes} (p : Bytes) : ∀ (l : List MetaData) (fs : MetaData.FS),
    (∀ m ∈ l, p ≠ MetaData.loosePath root m.id) →
    (l.foldl (fun fs m => (MetaData.writeToFile X m root fs).1) fs) p = fs p := by
  intro l
  induction l with
  | nil => intro fs _; rfl
  | cons a l ih =>
    intro fs h
    rw [List.foldl_cons, ih _ (fun m hm => h m (by simp [hm]))]
    simp [MetaData.writeToFile, h a (by simp)]

theorem readUntil_at (d : UInt8) : ∀ (a rest : Bytes), d ∉ a → readUntilDelimiter d (a ++ d :: rest) = .ok (a, rest)
  | [], rest, _ => by simp [readUntilDelimiter]
  | b :: a, rest, h => by
    have hb : b ≠ d := fun e => h (by simp [e])
    have := readUntil_at d a rest (fun hm => h (by simp [hm]))
    simp [readUntilDelimiter, hb, this]

theorem parseDecimal_decStr {n : Nat} (h : n < U64) : parseDecimal (decStr n) = some n := by
  simp [parseDecimal, parseDigits_decStr, h]

theorem unpackedPath_plain (h : Hash) : unpackedPath false h = MetaData.loosePath (ascii ".git/objects") h := rfl

/-- Reading the bytes of an object gives the *commit* with its content. -/
theorem readUnpackedBytes_loose (X : Ext) (m : MetaData) (hl : m.data.length < 2 ^ 63) :
    readUnpackedBytes X m.looseBytes = MetaData.new X .commit m.data := by
  have hsp := (toBytes_nospace m.t).1
  have hdz := zero_notin_decStr m.data.length
  have e : m.looseBytes = m.t.toBytes ++ 0x20 :: (decStr m.data.length ++ 0 :: m.data) := by simp [MetaData.looseBytes]
  have hU : m.data.length < U64 := by unfold U64; omega
  have hn : ¬ 2 ^ 63 ≤ m.data.length := by omega
  simp only [readUnpackedBytes, e, readUntil_at _ _ _ hsp, readUntil_at _ _ _ hdz, Res.unwrap_ok, Res.bind_ok,
    parseDecimal_decStr hU, looseKind]
  rw [if_neg hn, if_neg (by simp)]

/-- **C112**, partial: after any objects have been written, each *commit* among them is read back by its id. Missing: the other kinds
of objects, and a process that writes to a terminal (`C112_kinds_false`, `C112_terminal_false`). -/
theorem C112_commit_partial (X : Ext) (ms : List MetaData) (hs : Spec.ObjectSet X ms) (m : MetaData) (hm : m ∈ ms)
    (hc : m.t = .commit) : readObject X false (Spec.objectFiles X ms) m.id = .ok m := by
  obtain ⟨h1, h2⟩ := hs.objects m hm
  have hk := written_file (X := X) (root := ascii ".git/objects") ms (fun _ => none) m
    (fun a ha he => hs.ids a ha m hm he) (Or.inl hm)
  have hinf := X.inflate_deflate m.looseBytes []
  rw [List.append_nil] at hinf
  rw [hc] at h1
  simp only [readObject, readUnpackedObject, unpackedPath_plain, Spec.objectFiles, hk, Res.unwrapOpt_some, Res.bind_ok, hinf,
    readUnpackedBytes_loose X m h2, h1]
  simp

/-- **C112**, part: whatever the files contain, an object that is returned has the id that was asked for, and its id is that of its
content. -/
theorem C112_identity (X : Ext) (terminal : Bool) (fs : MetaData.FS) (h : Hash) (m : MetaData)
    (hr : readObject X terminal fs h = .ok m) : m.id = h ∧ MetaData.new X m.t m.data = .ok m ∧ m.size = m.data.length := by
  simp only [readObject] at hr
  split at hr
  · rename_i m' hm'
    split at hr
    · cases hr
    · rename_i hid
      cases hr
      have hid : m.id = h := by simpa using hid
      simp only [readUnpackedObject, Res.bind_eq_ok] at hm'
      obtain ⟨f, _, d, _, hm'⟩ := hm'
      simp only [readUnpackedBytes, Res.bind_eq_ok] at hm'
      obtain ⟨a, _, b, _, hm'⟩ := hm'
      split at hm'
      · cases hm'
      · split at hm'
        · cases hm'
        · split at hm'
          · cases hm'
          · obtain ⟨_, e1, e2, e3, _⟩ := new_ok hm'
            exact ⟨hid, by rw [e1, e2]; exact hm', by rw [e3, e2]⟩
  all_goals cases hr

/-- **C112 is false** of trees, files and tags: none of them is ever read, whatever the directory contains. -/
theorem C112_kinds_false (X : Ext) (terminal : Bool) (fs : MetaData.FS) (h : Hash) (m : MetaData)
    (hr : readObject X terminal fs h = .ok m) : m.t = .commit := by
  simp only [readObject] at hr
  split at hr
  · rename_i m' hm'
    split at hr
    · cases hr
    · cases hr
      simp only [readUnpackedObject, Res.bind_eq_ok] at hm'
      obtain ⟨f, _, d, _, hm'⟩ := hm'
      simp only [readUnpackedBytes, Res.bind_eq_ok] at hm'
      obtain ⟨a, _, b, _, hm'⟩ := hm'
      split at hm'
      · cases hm'
      · split at hm'
        · cases hm'
        · split at hm'
          · cases hm'
          · exact (new_ok hm').2.1
  all_goals cases hr

/-- **C112 is false** of trees, files and tags: a stored one is refused as having the wrong id, unless the id of the commit with the
same content is by accident the same. -/
theorem C112_refused_false (X : Ext) (ms : List MetaData) (hs : Spec.ObjectSet X ms) (m : MetaData) (hm : m ∈ ms) (c : MetaData)
    (hc : MetaData.new X .commit m.data = .ok c) (hne : c.id ≠ m.id) :
    readObject X false (Spec.objectFiles X ms) m.id = .err .delta := by
  obtain ⟨h1, h2⟩ := hs.objects m hm
  have hk := written_file (X := X) (root := ascii ".git/objects") ms (fun _ => none) m
    (fun a ha he => hs.ids a ha m hm he) (Or.inl hm)
  have hinf := X.inflate_deflate m.looseBytes []
  rw [List.append_nil] at hinf
  simp only [readObject, readUnpackedObject, unpackedPath_plain, Spec.objectFiles, hk, Res.unwrapOpt_some, Res.bind_ok, hinf,
    readUnpackedBytes_loose X m h2, hc]
  simp [hne]

theorem terminal_path (a b : Hash) : unpackedPath true a ≠ MetaData.loosePath (ascii ".git/objects") b := by
  intro h
  rw [loosePath_eq] at h
  have hp : pathPre (ascii ".git/objects") = ascii ".git/objects" ++ [0x2f] := by
    unfold pathPre; rw [if_neg (by decide)]
  have hd : (Hash.display true a).take 2 = [0x1b, 0x5b] := rfl
  rw [hp, unpackedPath, hd, pathPush_eq, pathPush_eq, hp] at h
  have hq : pathPre (ascii ".git/objects" ++ [0x2f] ++ [0x1b, 0x5b]) = ascii ".git/objects" ++ [0x2f] ++ [0x1b, 0x5b] ++ [0x2f] := by
    unfold pathPre; rw [if_neg (by decide)]
  rw [hq] at h
  simp only [List.append_assoc] at h
  have h := List.append_cancel_left (List.append_cancel_left h)
  have hlen : (Hash.toFolder b).length = 2 := by simp [Hash.toFolder, Hash.toPlainStr_length]
  match hf : Hash.toFolder b, hlen with
  | [x, y], _ =>
    rw [hf] at h
    have hx : (0x1b : UInt8) = x := by simpa using (List.cons.inj h).1
    have := Hash.toPlainStr_range b x (List.mem_of_mem_take (show x ∈ (Hash.toPlainStr b).take 2 by
      show x ∈ Hash.toFolder b; rw [hf]; simp))
    rw [← hx] at this
    simp at this

/-- **C112 is false** in a process that writes to a terminal: every read of every object crashes, because the colour codes of the
displayed id become part of the file name. -/
theorem C112_terminal_false (X : Ext) (ms : List MetaData) (h : Hash) :
    readObject X true (Spec.objectFiles X ms) h = .panic := by
  have := written_only (X := X) (root := ascii ".git/objects") (unpackedPath true h) ms (fun _ => none)
    (fun m _ => terminal_path h m.id)
  simp only [readObject, readUnpackedObject, Spec.objectFiles, this]
  rfl

/-- A commit and a file. -/
def twoLoose : List MetaData := [metaOf demoExt (.commit, ascii "c"), metaOf demoExt (.blob, ascii "file")]

theorem twoLoose_set : Spec.ObjectSet demoExt twoLoose := by
  refine ⟨?_, by decide +kernel⟩
  intro m hm
  simp only [twoLoose, List.mem_cons, List.not_mem_nil, or_false] at hm
  rcases hm with rfl | rfl
  · exact ⟨new_metaOf demoExt (.commit, ascii "c") rfl, by decide⟩
  · exact ⟨new_metaOf demoExt (.blob, ascii "file") rfl, by decide⟩

/-- The commit is read, the file is refused, and in a terminal both crash. -/
example : readObject demoExt false (Spec.objectFiles demoExt twoLoose) (metaOf demoExt (.commit, ascii "c")).id
      = .ok (metaOf demoExt (.commit, ascii "c")) ∧
    readObject demoExt false (Spec.objectFiles demoExt twoLoose) (metaOf demoExt (.blob, ascii "file")).id = .err .delta ∧
    readObject demoExt true (Spec.objectFiles demoExt twoLoose) (metaOf demoExt (.commit, ascii "c")).id = .panic :=
  ⟨C112_commit_partial demoExt twoLoose twoLoose_set _ (by simp [twoLoose]) rfl,
    C112_refused_false demoExt twoLoose twoLoose_set (metaOf demoExt (.blob, ascii "file")) (by simp [twoLoose])
      (metaOf demoExt (.commit, ascii "file")) (new_metaOf demoExt (.commit, ascii "file") rfl) (by decide +kernel),
    C112_terminal_false demoExt twoLoose _⟩

/-- An id without a file crashes the process rather than being an error. -/
theorem C112_missing_false (X : Ext) (fs : MetaData.FS) (h : Hash) (hf : fs (MetaData.loosePath (ascii ".git/objects") h) = none) :
    readObject X false fs h = .panic := by
  simp only [readObject, readUnpackedObject, unpackedPath_plain, hf]
  rfl

/-- A damaged file crashes the process too: if the length stated in the file is not that of the content, the object is never returned, nor is an error. -/
theorem C112_damaged_false (X : Ext) (fs : MetaData.FS) (h : Hash) (file kind content rest : Bytes) (n : Nat) (hf : fs (MetaData.loosePath (ascii ".git/objects") h) = some file)
    (hz : X.inflate file = some (kind ++ 0x20 :: (decStr n ++ 0 :: content), rest)) (hk : (0x20 : UInt8) ∉ kind) (hn : n ≠ content.length) :
    readObject X false fs h = .panic := by
  have e : readUnpackedObject X false fs h = .err .delta ∨ readUnpackedObject X false fs h = .panic := by
    simp only [readUnpackedObject, unpackedPath_plain, hf, Res.unwrapOpt, Res.bind_ok, hz, readUnpackedBytes, readUntil_at _ _ _ hk, readUntil_at _ _ _ (zero_notin_decStr n),
      Res.unwrap_ok]
    by_cases hu : n < U64
    · simp only [parseDecimal_decStr hu]
      by_cases h2 : 2 ^ 63 ≤ n
      · rw [if_pos h2]; exact .inr rfl
      · rw [if_neg h2, if_pos (fun e => hn e.symm)]; exact .inl rfl
    · have : parseDecimal (decStr n) = none := by simp [parseDecimal, parseDigits_decStr, hu]
      rw [this]; exact .inl rfl
  simp only [readObject]
  rcases e with e | e <;> rw [e]
/-- A commit with one byte too many. -/
def longCommit : Bytes := ascii "commit" ++ 0x20 :: (decStr 4 ++ 0 :: ascii "tree!")

example : readObject demoExt false (fun _ => some (demoExt.deflate longCommit)) (metaOf demoExt (.commit, ascii "tree")).id = .panic := by
  have h := demoExt.inflate_deflate longCommit []
  rw [List.append_nil] at h
  exact C112_damaged_false demoExt _ _ (demoExt.deflate longCommit) (ascii "commit") (ascii "tree!") [] 4 rfl h (by decide) (by decide)

end Gust

import Verif.Lemmas.Hash

/-! # C04 – C07: object ids, object headers, loose objects, object types -/

namespace Gust
open Hash

/-- **C04.** Printing an id and parsing it gives the id back; the text is 40 lower-case hexadecimal digits. -/
theorem C04_hash_roundtrip (h : Hash) :
    fromBytes (toPlainStr h) = some h ∧ (toPlainStr h).length = 40 ∧
      ∀ c ∈ toPlainStr h, Spec.IsHexDigit c ∧ Spec.lower c = c := by
  refine ⟨fromBytes_toPlainStr h, toPlainStr_length h, ?_⟩
  intro c hc
  refine ⟨(fromBytes_some (fromBytes_toPlainStr h)).2.2 c hc, ?_⟩
  have key : ∀ c : UInt8, ((48 ≤ c.toNat ∧ c.toNat ≤ 57) ∨ (97 ≤ c.toNat ∧ c.toNat ≤ 102)) →
      Spec.lower c = c := by apply forall_byte; decide +kernel
  exact key c (toPlainStr_range h c hc)

/-- **C04.** Parsing accepts exactly the strings of 40 hexadecimal digits; everything else is an error value. -/
theorem C04_hash_accepts_iff (s : Bytes) :
    ((∃ h, fromStr s = .ok h) ↔ (s.length = 40 ∧ ∀ c ∈ s, Spec.IsHexDigit c)) ∧
      ((¬ ∃ h, fromStr s = .ok h) → fromStr s = .err .hashValue) := by
  constructor
  · constructor
    · rintro ⟨h, hs⟩
      exact (fromBytes_some (Res.okOr_eq_ok.1 hs)).2
    · rintro ⟨h1, h2⟩
      obtain ⟨h, hh⟩ := fromBytes_isSome s h1 h2
      exact ⟨h, by simp [fromStr, hh]⟩
  · intro hn
    cases hs : fromBytes s with
    | none => simp [fromStr, hs]
    | some h => exact absurd ⟨h, by simp [fromStr, hs]⟩ hn

/-- **C04.** The printed form of a parsed id is the input in lower case, and two accepted strings denote the same id
exactly when they are equal up to letter case. -/
theorem C04_hash_case (s s' : Bytes) (h h' : Hash) (hs : fromStr s = .ok h) (hs' : fromStr s' = .ok h') :
    toPlainStr h = s.map Spec.lower ∧ (h = h' ↔ s.map Spec.lower = s'.map Spec.lower) := by
  have e := (fromBytes_some (Res.okOr_eq_ok.1 hs)).1
  have e' := (fromBytes_some (Res.okOr_eq_ok.1 hs')).1
  refine ⟨e, ?_, ?_⟩
  · rintro rfl; rw [← e, ← e']
  · intro hh
    apply toPlainStr_injective
    rw [e, e', hh]

/-- Non-trivial instance for C04: an id with mixed bytes, printed, upper-cased, parsed. -/
example : ∃ h, fromStr (ascii "18fd2deaaf152c7f1222c52fb2673f6192b375F0") = .ok h ∧
    toPlainStr h = ascii "18fd2deaaf152c7f1222c52fb2673f6192b375f0" := by
  obtain ⟨h, hh⟩ := (C04_hash_accepts_iff (ascii "18fd2deaaf152c7f1222c52fb2673f6192b375F0")).1.2 (by decide +kernel)
  refine ⟨h, hh, ?_⟩
  rw [(C04_hash_case _ _ h h hh hh).1]
  decide +kernel

/-- **C05.** The hashed byte string is `<type> SP <decimal length> NUL <content>`; delta types have no id. -/
theorem C05_preimage_format (t : ObjectType) (data : Bytes) :
    (∃ k dec, Spec.IsDecimal dec data.length ∧ t.number = k.val + 1 ∧
        Hash.preimage t data = .ok (Spec.typeName k ++ [32] ++ dec ++ [0] ++ data)) ∨
      ((t = .offsetDelta ∨ t = .hashDelta) ∧ Hash.preimage t data = .panic) := by
  cases t
  · exact Or.inl ⟨0, _, decStr_isDecimal _, rfl, preimage_base .commit data rfl⟩
  · exact Or.inl ⟨1, _, decStr_isDecimal _, rfl, preimage_base .tree data rfl⟩
  · exact Or.inl ⟨2, _, decStr_isDecimal _, rfl, preimage_base .blob data rfl⟩
  · exact Or.inl ⟨3, _, decStr_isDecimal _, rfl, preimage_base .tag data rfl⟩
  · exact Or.inr ⟨Or.inl rfl, rfl⟩
  · exact Or.inr ⟨Or.inr rfl, rfl⟩

/-- **C05.** Two objects with the same hashed byte string are the same object. -/
theorem C05_preimage_injective (t t' : ObjectType) (data data' p : Bytes)
    (h : Hash.preimage t data = .ok p) (h' : Hash.preimage t' data' = .ok p) : t = t' ∧ data = data' := by
  obtain ⟨e, hb⟩ := preimage_eq t data p h
  obtain ⟨e', _⟩ := preimage_eq t' data' p h'
  rw [e] at e'
  obtain ⟨h1, _, h3⟩ := header_split (toBytes_nospace t).1 (toBytes_nospace t').1
    (zero_notin_decStr _) (zero_notin_decStr _) e'
  refine ⟨toBytes_inj ?_ h1, h3⟩
  rcases hb with rfl | rfl | rfl | rfl <;> rfl

/-- **C05.** Two objects created with the same id are equal, or their hashed byte strings are a SHA-1 collision. -/
theorem C05_same_id_or_collision (X : Ext) (t t' : ObjectType) (data data' : Bytes) (m m' : MetaData)
    (h : MetaData.new X t data = .ok m) (h' : MetaData.new X t' data' = .ok m') (hid : m.id = m'.id) :
    (t = t' ∧ data = data' ∧ m = m') ∨
      ∃ p p', Hash.preimage t data = .ok p ∧ Hash.preimage t' data' = .ok p' ∧ p ≠ p' ∧ X.sha1 p = X.sha1 p' := by
  obtain ⟨hb, _, _, _, _, hi⟩ := new_ok h
  obtain ⟨hb', _, _, _, _, hi'⟩ := new_ok h'
  have hp := preimage_base t data hb
  have hp' := preimage_base t' data' hb'
  by_cases heq : t.toBytes ++ [0x20] ++ decStr data.length ++ [0] ++ data
      = t'.toBytes ++ [0x20] ++ decStr data'.length ++ [0] ++ data'
  · left
    rw [heq] at hp
    obtain ⟨rfl, rfl⟩ := C05_preimage_injective _ _ _ _ _ hp hp'
    rw [h] at h'
    cases h'
    exact ⟨rfl, rfl, rfl⟩
  · right
    exact ⟨_, _, hp, hp', heq, by rw [← hi, ← hi', hid]⟩

example : ∃ m, MetaData.new demoExt .blob [104, 105] = .ok m ∧ m.size = 2 :=
  ⟨_, new_base demoExt .blob [104, 105] rfl, rfl⟩

/-- **C06.** An object written to the loose object directory is read back unchanged from the returned path; the path is
`root/xx/yyyy…` with the 2 + 38 hexadecimal digits of the id; no other file changes. -/
theorem C06_loose_roundtrip (X : Ext) (t : ObjectType) (data root : Bytes) (fs : MetaData.FS) (m : MetaData)
    (hm : MetaData.new X t data = .ok m) (hl : data.length < 2 ^ 64) :
    MetaData.readObjectFromFile X (MetaData.writeToFile X m root fs).1 (MetaData.writeToFile X m root fs).2 = .ok m ∧
    (∃ pre a b, (MetaData.writeToFile X m root fs).2 = pre ++ a ++ [0x2f] ++ b ∧
      (pre = root ∨ pre = root ++ [0x2f]) ∧ a ++ b = toPlainStr m.id ∧ a.length = 2 ∧ b.length = 38) ∧
    ∀ p, p ≠ (MetaData.writeToFile X m root fs).2 → (MetaData.writeToFile X m root fs).1 p = fs p := by
  obtain ⟨hb, ht, hd, _, _, _⟩ := new_ok hm
  refine ⟨?_, ?_, ?_⟩
  · have hinf := X.inflate_deflate m.looseBytes []
    rw [List.append_nil] at hinf
    simp only [MetaData.readObjectFromFile, MetaData.writeToFile, if_true, Res.unwrapOpt_some,
      Res.bind_ok, hinf]
    rw [MetaData.looseBytes, ht, hd, parseLoose_looseBytes X t data hb (by simpa [U64] using hl), hm]
  · refine ⟨pathPre root, toFolder m.id, toFilename m.id, loosePath_eq root m.id, ?_, ?_, ?_, ?_⟩
    · unfold pathPre; split <;> simp
    · exact List.take_append_drop 2 _
    · simp [toFolder, toPlainStr_length]
    · simp [toFilename, toPlainStr_length]
  · intro p hp
    simp only [MetaData.writeToFile] at hp ⊢
    rw [if_neg hp]

/-- **C06.** Different ids are stored under different paths. -/
theorem C06_loose_path_injective (root : Bytes) (a b : Hash)
    (h : MetaData.loosePath root a = MetaData.loosePath root b) : a = b := loosePath_injective h

/-- **C06**, histories: after writing any sequence of objects (no two different ones with the same id), every one of
them can be read back. -/
theorem C06_loose_store_history (X : Ext) (root : Bytes) (ms : List MetaData) (fs : MetaData.FS)
    (hnew : ∀ m ∈ ms, MetaData.new X m.t m.data = .ok m ∧ m.data.length < 2 ^ 64)
    (hcoll : ∀ a ∈ ms, ∀ b ∈ ms, a.id = b.id → a = b) :
    ∀ m ∈ ms, MetaData.readObjectFromFile X
      (ms.foldl (fun fs m => (MetaData.writeToFile X m root fs).1) fs) (MetaData.loosePath root m.id) = .ok m := by
  -- strengthen: the file of `m` holds its bytes after the fold
  have key : ∀ (l : List MetaData) (fs : MetaData.FS) (m : MetaData),
      (∀ a ∈ l, a.id = m.id → a = m) →
      (m ∈ l ∨ fs (MetaData.loosePath root m.id) = some (X.deflate m.looseBytes)) →
      (l.foldl (fun fs m => (MetaData.writeToFile X m root fs).1) fs) (MetaData.loosePath root m.id)
        = some (X.deflate m.looseBytes) := by
    intro l
    induction l with
    | nil => intro fs m _ h; simpa using h
    | cons a l ih =>
      intro fs m hc h
      simp only [List.foldl_cons]
      apply ih
      · exact fun b hb => hc b (by simp [hb])
      · by_cases hp : MetaData.loosePath root m.id = MetaData.loosePath root a.id
        · have : a = m := hc a (by simp) (loosePath_injective hp).symm
          subst this
          right; simp [MetaData.writeToFile]
        · rcases h with h | h
          · rcases List.mem_cons.1 h with rfl | h
            · exact absurd rfl hp
            · exact Or.inl h
          · right; simp [MetaData.writeToFile, hp, h]
  intro m hm
  obtain ⟨h1, h2⟩ := hnew m hm
  have hk := key ms fs m (fun a ha he => hcoll a ha m hm he) (Or.inl hm)
  obtain ⟨hb, _⟩ := new_ok h1
  have hinf := X.inflate_deflate m.looseBytes []
  rw [List.append_nil] at hinf
  simp only [MetaData.readObjectFromFile, hk, Res.unwrapOpt_some, Res.bind_ok, hinf]
  rw [MetaData.looseBytes, parseLoose_looseBytes X m.t m.data hb (by simpa [U64] using h2), h1]

example : ∃ m, MetaData.new demoExt .tree [32, 0, 49] = .ok m ∧ m.data = [32, 0, 49] ∧ m.data.length < 2 ^ 64 :=
  ⟨_, new_base demoExt .tree [32, 0, 49] rfl, rfl, by decide⟩

/-- **C07.** Numbers and names of object types are faithful, and nothing else is accepted. -/
theorem C07_type_codes (t : ObjectType) :
    ObjectType.ofNumber t.number = .ok t ∧
    (t ≠ .offsetDelta → t ≠ .hashDelta →
      ObjectType.fromString t.toBytes = .ok t ∧ ObjectType.fromString t.display = .ok t) := by
  cases t <;> decide

/-- **C07.** A number is accepted only if it is the number of the resulting type; other numbers panic. -/
theorem C07_number_accepts (n : Nat) :
    (∃ t : ObjectType, ObjectType.ofNumber n = .ok t ∧ t.number = n) ∨
      (ObjectType.ofNumber n = .panic ∧ ∀ t : ObjectType, t.number ≠ n) := by
  match n with
  | 0 => right; exact ⟨rfl, by intro t; cases t <;> decide⟩
  | 1 => left; exact ⟨.commit, rfl, rfl⟩
  | 2 => left; exact ⟨.tree, rfl, rfl⟩
  | 3 => left; exact ⟨.blob, rfl, rfl⟩
  | 4 => left; exact ⟨.tag, rfl, rfl⟩
  | 5 => right; exact ⟨rfl, by intro t; cases t <;> decide⟩
  | 6 => left; exact ⟨.offsetDelta, rfl, rfl⟩
  | 7 => left; exact ⟨.hashDelta, rfl, rfl⟩
  | n + 8 =>
    right
    refine ⟨rfl, ?_⟩
    intro t
    cases t <;> simp [ObjectType.number]

/-- **C07.** A name is accepted only if it is one of the four type names, and then as that type; every other string is
an error. -/
theorem C07_name_accepts (s : Bytes) :
    (∃ (k : Fin 4) (t : ObjectType), s = Spec.typeName k ∧ ObjectType.fromString s = .ok t ∧ t.toBytes = s ∧ t.number = k + 1) ∨
      (ObjectType.fromString s = .err .objectInfo ∧ ∀ k, s ≠ Spec.typeName k) := by
  by_cases h0 : s = ascii "commit"
  · left; subst h0; exact ⟨0, .commit, by decide, by decide, by decide, by decide⟩
  by_cases h1 : s = ascii "tree"
  · left; subst h1; exact ⟨1, .tree, by decide, by decide, by decide, by decide⟩
  by_cases h2 : s = ascii "blob"
  · left; subst h2; exact ⟨2, .blob, by decide, by decide, by decide, by decide⟩
  by_cases h3 : s = ascii "tag"
  · left; subst h3; exact ⟨3, .tag, by decide, by decide, by decide, by decide⟩
  right
  refine ⟨by simp [ObjectType.fromString, h0, h1, h2, h3], ?_⟩
  have e0 : Spec.typeName 0 = ascii "commit" := by decide
  have e1 : Spec.typeName 1 = ascii "tree" := by decide
  have e2 : Spec.typeName 2 = ascii "blob" := by decide
  have e3 : Spec.typeName 3 = ascii "tag" := by decide
  intro k
  match k with
  | 0 => rw [e0]; exact h0
  | 1 => rw [e1]; exact h1
  | 2 => rw [e2]; exact h2
  | 3 => rw [e3]; exact h3

end Gust

import Verif.Lemmas.Hash
import Verif.Spec.Codec
import Mathlib.Tactic.Set
import Batteries.Tactic.PermuteGoals

namespace Gust

theorem slice_at {α : Type} {data : List α} {i j : Nat} (a b c : List α) (hd : data = a ++ (b ++ c))
    (hi : i = a.length) (hj : j = a.length + b.length) : slice data i j = .ok b := by
  subst hd hi hj; exact slice_mid a b c

theorem sliceFrom_at {α : Type} {data : List α} {n : Nat} (a c : List α) (hd : data = a ++ c)
    (h : n = a.length) : sliceFrom data n = .ok c := by
  subst hd; exact sliceFrom_append a c n h

theorem findByte_at {b : UInt8} {data : Bytes} (l r : Bytes) (hd : data = l ++ b :: r) (h : b ∉ l) :
    findByte b data = some l.length := by
  subst hd; exact findByte_append b l r h

theorem slice_ok {α : Type} {data s : List α} {i j : Nat} (h : slice data i j = .ok s) :
    i ≤ j ∧ j ≤ data.length ∧ s = (data.take j).drop i := by
  rw [slice] at h
  split at h
  · rename_i hc
    simp only [Res.ok.injEq] at h
    exact ⟨hc.1, hc.2, h.symm⟩
  · cases h

theorem sliceFrom_ok {α : Type} {data s : List α} {i : Nat} (h : sliceFrom data i = .ok s) :
    i ≤ data.length ∧ s = data.drop i := by
  rw [sliceFrom] at h
  split at h
  · rename_i hc
    simp only [Res.ok.injEq] at h
    exact ⟨hc, h.symm⟩
  · cases h

theorem utf8Valid_ascii (s : Bytes) (h : ∀ c ∈ s, c.toNat < 128) : utf8Valid s = true := by
  induction s with
  | nil => rfl
  | cons a s ih =>
    have ha : a < 0x80 := by
      have := h a (by simp)
      rw [UInt8.lt_iff_toNat_lt]; simpa using this
    unfold utf8Valid
    simp only [ha, if_true]
    exact ih (fun c hc => h c (by simp [hc]))

theorem utf8Valid_decStr (n : Nat) : utf8Valid (decStr n) = true :=
  utf8Valid_ascii _ (fun c hc => by have := decStr_range n c hc; omega)

theorem toStr_ok {s : Bytes} (h : utf8Valid s = true) : toStr s = .ok s := by simp [toStr, h]

/-! ## Trees -/

theorem fromMode_ok {mode : Bytes} {t : TreeItemType} :
    TreeItemType.fromMode mode = .ok t ↔
      ((mode, t) = (ascii "40000", .tree) ∨ (mode, t) = (ascii "100644", .blob) ∨
       (mode, t) = (ascii "100664", .blob) ∨ (mode, t) = (ascii "100640", .blob) ∨
       (mode, t) = (ascii "100755", .blobExecutable) ∨ (mode, t) = (ascii "120000", .link) ∨
       (mode, t) = (ascii "160000", .commit)) := by
  constructor
  · intro h
    simp only [TreeItemType.fromMode] at h
    simp only [Prod.mk.injEq]
    repeat' split at h
    all_goals first | (simp only [Res.ok.injEq] at h; subst h; simp [*]) | cases h
  · rintro (h | h | h | h | h | h | h) <;> (obtain ⟨rfl, rfl⟩ := Prod.mk.inj h; decide)

theorem mode_plain {mode : Bytes} {t : TreeItemType} (h : TreeItemType.fromMode mode = .ok t) :
    (0x20 : UInt8) ∉ mode ∧ (0 : UInt8) ∉ mode := by
  rcases fromMode_ok.1 h with (h | h | h | h | h | h | h) <;> (obtain ⟨rfl, rfl⟩ := Prod.mk.inj h; decide)

theorem decodeTreeItem_encode (i : TreeItem) (rest : Bytes) (h : Spec.TreeEntryOk i) :
    decodeTreeItem (encodeTreeItem i ++ rest) = .ok (i, rest) := by
  obtain ⟨hm, hz, hu⟩ := h
  have hm := fromMode_ok.2 hm
  obtain ⟨hsp, hz'⟩ := mode_plain hm
  have hid : i.id.1.length = 20 := i.id.2
  have e1 : findByte 0x20 (encodeTreeItem i ++ rest) = some i.mode.length :=
    findByte_at i.mode (i.filename ++ [0] ++ i.id.1 ++ rest) (by simp [encodeTreeItem]) hsp
  have e2 : slice (encodeTreeItem i ++ rest) 0 i.mode.length = .ok i.mode :=
    slice_at [] i.mode ([0x20] ++ i.filename ++ [0] ++ i.id.1 ++ rest) (by simp [encodeTreeItem]) rfl (by simp)
  have e3 : findByte 0 (encodeTreeItem i ++ rest) = some (i.mode ++ [0x20] ++ i.filename).length :=
    findByte_at (i.mode ++ [0x20] ++ i.filename) (i.id.1 ++ rest) (by simp [encodeTreeItem])
      (by simp [hz', hz])
  have e4 : slice (encodeTreeItem i ++ rest) (i.mode.length + 1) (i.mode ++ [0x20] ++ i.filename).length =
      .ok i.filename :=
    slice_at (i.mode ++ [0x20]) i.filename ([0] ++ i.id.1 ++ rest) (by simp [encodeTreeItem]) (by simp) (by simp; omega)
  have e5 : slice (encodeTreeItem i ++ rest) ((i.mode ++ [0x20] ++ i.filename).length + 1)
      ((i.mode ++ [0x20] ++ i.filename).length + 21) = .ok i.id.1 :=
    slice_at (i.mode ++ [0x20] ++ i.filename ++ [0]) i.id.1 rest (by simp [encodeTreeItem]) (by simp; omega)
      (by simp [hid]; omega)
  have e6 : (encodeTreeItem i ++ rest).drop ((i.mode ++ [0x20] ++ i.filename).length + 21) = rest := by
    have : (i.mode ++ [0x20] ++ i.filename).length + 21 = (encodeTreeItem i).length := by
      simp [encodeTreeItem, hid]; omega
    rw [this, List.drop_left]
  simp only [decodeTreeItem, e1, e2, e3, e4, e5, Res.unwrapOpt_some, Res.bind_ok, hm, Res.unwrap_ok, hu,
    Bool.not_true, Bool.false_eq_true, if_false, e6, Hash.fromRow, hid, dif_pos, Res.pure_eq]

theorem decodeTreeItem_ok {data : Bytes} {i : TreeItem} {rest : Bytes}
    (h : decodeTreeItem data = .ok (i, rest)) :
    data = encodeTreeItem i ++ rest ∧ Spec.TreeEntryOk i := by
  simp only [decodeTreeItem, Res.bind_eq_ok, Res.unwrapOpt_eq_ok, Res.unwrap_eq_ok] at h
  obtain ⟨mi, hmi, mode, hmode, it, hit, fi, hfi, fn, hfn, h⟩ := h
  by_cases hu : utf8Valid fn
  swap
  · simp [hu] at h
  simp only [hu, Bool.not_true, Bool.false_eq_true, if_false, Res.bind_eq_ok] at h
  obtain ⟨row, hrow, id, hid, h⟩ := h
  simp only [Res.pure_eq, Res.ok.injEq, Prod.mk.injEq] at h
  obtain ⟨rfl, rfl⟩ := h
  obtain ⟨_, hl1, hmode⟩ := slice_ok hmode
  obtain ⟨hl2, hl3, hfn⟩ := slice_ok hfn
  obtain ⟨hl4, hl5, hrow⟩ := slice_ok hrow
  obtain ⟨p, s, hps, hpl, hpn⟩ := findByte_some hmi
  obtain ⟨q, s', hqs, hql, hqn⟩ := findByte_some hfi
  have hidv : id.1 = row := by
    rw [Hash.fromRow] at hid
    split at hid
    · simp only [Res.ok.injEq] at hid; subst hid; rfl
    · cases hid
  have hmp : mode = p := by
    rw [hmode, hps, ← hpl]; simp
  have hdq : data.take fi = q := by rw [hqs, ← hql]; simp
  -- data[..fi] = mode ++ " " ++ fn
  have hq : q = mode ++ 0x20 :: fn := by
    have h1 : q.take (mi + 1) = p ++ [0x20] := by
      rw [← hdq, List.take_take, Nat.min_eq_left hl2, hps, ← hpl]
      rw [List.take_append, List.take_of_length_le (by omega)]
      simp
    have h2 : q.drop (mi + 1) = fn := by rw [hfn, hdq]
    rw [hmp, ← List.take_append_drop (mi + 1) q, h1, h2]; simp
  have hrow' : row = s'.take 20 := by
    rw [hrow, hqs, ← hql]
    rw [List.drop_take]
    have : q.length + 21 - (q.length + 1) = 20 := by omega
    rw [this, ← List.drop_drop]
    simp
  have hdrop : data.drop (fi + 21) = s'.drop 20 := by
    rw [hqs, ← hql, ← List.drop_drop]; simp
  refine ⟨?_, fromMode_ok.1 hit, ?_, hu⟩
  · simp only [encodeTreeItem, hidv, hdrop, hrow']
    conv => lhs; rw [hqs, hq, ← List.take_append_drop 20 s']
    simp
  · intro hc; exact hqn (by rw [hq]; simp [hc])

theorem decodeTree_nil : decodeTree [] = .ok [] := by rw [decodeTree]; simp

theorem decodeTree_cons {data : Bytes} {i : TreeItem} {rest : Bytes} (h : decodeTreeItem data = .ok (i, rest)) :
    decodeTree data = (decodeTree rest >>= fun is => pure (i :: is)) := by
  have hne : data ≠ [] := by
    rintro rfl
    have := decodeTreeItem_shrinks h
    simp at this
  rw [decodeTree]
  simp only [hne, if_false]
  split
  · rename_i r hr
    rw [h] at hr
    simp only [Res.ok.injEq] at hr
    subst hr; rfl
  · rename_i e hr; rw [h] at hr; cases hr
  · rename_i hr; rw [h] at hr; cases hr
  · rename_i hr; rw [h] at hr; cases hr

theorem decodeTree_ok_cases {data : Bytes} {items : List TreeItem} (h : decodeTree data = .ok items) :
    (data = [] ∧ items = []) ∨
      ∃ i rest is, decodeTreeItem data = .ok (i, rest) ∧ decodeTree rest = .ok is ∧ items = i :: is := by
  by_cases hne : data = []
  · subst hne; rw [decodeTree_nil] at h; simp at h; exact .inl ⟨rfl, h⟩
  · right
    cases hi : decodeTreeItem data with
    | ok r =>
      rw [decodeTree_cons hi, Res.bind_eq_ok] at h
      obtain ⟨is, h1, h2⟩ := h
      simp only [Res.pure_eq, Res.ok.injEq] at h2
      exact ⟨r.1, r.2, is, rfl, h1, h2.symm⟩
    | _ =>
      rw [decodeTree] at h
      simp only [hne, if_false] at h
      split at h <;> simp_all

/-! ## Identity lines -/

theorem sign_decode_encode (s : AuthorSign) (h : Spec.SignOk s) : AuthorSign.decode s.encode = .ok s := by
  have hdec := decStr_range s.timestamp
  have hts : (0x20 : UInt8) ∉ decStr s.timestamp := space_notin_decStr _
  have hu : s.timestamp < U64 := by simpa [U64] using h.time
  set tl := decStr s.timestamp ++ [0x20] ++ s.timezone with htl
  have e1 : findByte 0x20 s.encode = some s.t.length :=
    findByte_at s.t (s.name ++ [0x20, 0x3C] ++ s.email ++ [0x3E, 0x20] ++ tl) (by simp [AuthorSign.encode, htl])
      h.t_space
  have e2 : slice s.encode 0 s.t.length = .ok s.t :=
    slice_at [] s.t ([0x20] ++ s.name ++ [0x20, 0x3C] ++ s.email ++ [0x3E, 0x20] ++ tl)
      (by simp [AuthorSign.encode, htl]) rfl (by simp)
  have e3 : findByte 0x3C s.encode = some (s.t ++ [0x20] ++ s.name ++ [0x20]).length :=
    findByte_at (s.t ++ [0x20] ++ s.name ++ [0x20]) (s.email ++ [0x3E, 0x20] ++ tl)
      (by simp [AuthorSign.encode, htl]) (by simp [h.t_lt, h.name_lt])
  have e4 : findByte 0x3E s.encode = some (s.t ++ [0x20] ++ s.name ++ [0x20, 0x3C] ++ s.email).length :=
    findByte_at (s.t ++ [0x20] ++ s.name ++ [0x20, 0x3C] ++ s.email) ([0x20] ++ tl)
      (by simp [AuthorSign.encode, htl]) (by simp [h.t_gt, h.name_gt, h.email_gt])
  have e5 : slice s.encode (s.t.length + 1) ((s.t ++ [0x20] ++ s.name ++ [0x20]).length - 1) = .ok s.name :=
    slice_at (s.t ++ [0x20]) s.name ([0x20, 0x3C] ++ s.email ++ [0x3E, 0x20] ++ tl)
      (by simp [AuthorSign.encode, htl]) (by simp) (by simp; omega)
  have e6 : slice s.encode ((s.t ++ [0x20] ++ s.name ++ [0x20]).length + 1)
      (s.t ++ [0x20] ++ s.name ++ [0x20, 0x3C] ++ s.email).length = .ok s.email :=
    slice_at (s.t ++ [0x20] ++ s.name ++ [0x20, 0x3C]) s.email ([0x3E, 0x20] ++ tl)
      (by simp [AuthorSign.encode, htl]) (by simp; omega) (by simp; omega)
  have e7 : sliceFrom s.encode ((s.t ++ [0x20] ++ s.name ++ [0x20, 0x3C] ++ s.email).length + 2) = .ok tl :=
    sliceFrom_at (s.t ++ [0x20] ++ s.name ++ [0x20, 0x3C] ++ s.email ++ [0x3E, 0x20]) tl
      (by simp [AuthorSign.encode, htl]) (by simp; omega)
  have e8 : findByte 0x20 tl = some (decStr s.timestamp).length :=
    findByte_at _ s.timezone (by simp [htl]) hts
  have e9 : slice tl 0 (decStr s.timestamp).length = .ok (decStr s.timestamp) :=
    slice_at [] _ ([0x20] ++ s.timezone) (by simp [htl]) rfl (by simp)
  have e10 : sliceFrom tl ((decStr s.timestamp).length + 1) = .ok s.timezone :=
    sliceFrom_at (decStr s.timestamp ++ [0x20]) _ (by simp [htl]) (by simp)
  have hne : (s.t ++ [0x20] ++ s.name ++ [0x20]).length ≠ 0 := by simp
  simp only [AuthorSign.decode, e1, e2, e3, e4, e5, e6, e7, e8, e9, e10, Res.unwrapOpt_some, Res.bind_ok,
    toStr_ok h.t_text, toStr_ok h.name_text, toStr_ok h.email_text, toStr_ok h.tz_text,
    toStr_ok (utf8Valid_decStr _), hne, if_false, parseUsize_decStr _ hu, Res.pure_eq]

theorem sign_oneLine {s : AuthorSign} (h : Spec.OneLine s) : (0x0a : UInt8) ∉ s.encode := by
  have : (0x0a : UInt8) ∉ decStr s.timestamp := by
    intro hc; have := decStr_range _ _ hc; simp at this
  simp [AuthorSign.encode, h.t, h.name, h.email, h.timezone, this]

/-! ## Commits -/

/-- First occurrence of a pattern `x y …` after a text without `y`. -/
theorem findSub_after {x y : UInt8} (p l r : Bytes) (hxy : x ≠ y) (hl : y ∉ l) :
    findSub (x :: y :: p) (l ++ ((x :: y :: p) ++ r)) = some l.length := by
  induction l with
  | nil => simp [findSub, List.isPrefixOf]
  | cons a l ih =>
    have hl' : y ∉ l := fun h => hl (by simp [h])
    have hno : (x :: y :: p).isPrefixOf (a :: (l ++ ((x :: y :: p) ++ r))) = false := by
      cases l with
      | nil => simp [List.isPrefixOf, Ne.symm hxy]
      | cons b l =>
        have : y ≠ b := fun h => hl (by simp [h])
        simp [List.isPrefixOf, this]
    rw [List.cons_append, findSub, hno]
    simp only [Bool.false_eq_true, if_false, ih hl']
    simp

theorem findSub_here (p r : Bytes) (hp : p ≠ []) : findSub p (p ++ r) = some 0 := by
  cases p with
  | nil => exact absurd rfl hp
  | cons a p => simp [findSub, List.isPrefixOf]

theorem toPlainStr_notin (h : Hash) (b : UInt8) (hb : b.toNat < 48 ∨ 102 < b.toNat) : b ∉ Hash.toPlainStr h := by
  intro hc; have := Hash.toPlainStr_range h b hc; omega

theorem parentLine_notin_u (ps : List Hash) : (117 : UInt8) ∉ ps.flatMap parentLine := by
  intro h
  obtain ⟨p, _, hp⟩ := List.mem_flatMap.1 h
  have := toPlainStr_notin p 117 (by decide)
  have h1 : (117 : UInt8) ∉ ascii "parent" := by decide
  simp [parentLine, this, h1] at hp

theorem parentLine_length (p : Hash) : (parentLine p).length = 48 := by
  simp [parentLine, Hash.toPlainStr_length, ascii]

theorem parents_length (ps : List Hash) : (ps.flatMap parentLine).length = 48 * ps.length := by
  induction ps with
  | nil => rfl
  | cons p ps ih => simp only [List.flatMap_cons, List.length_append, parentLine_length, ih, List.length_cons]; omega

theorem line_parse (word : Bytes) (h : Hash) (rest : Bytes) (hw1 : (0x20 : UInt8) ∉ word) (hw2 : (0x0a : UInt8) ∉ word) :
    findByte 0x20 (word ++ [0x20] ++ Hash.toPlainStr h ++ [0x0a] ++ rest) = some word.length ∧
    findByte 0x0a (word ++ [0x20] ++ Hash.toPlainStr h ++ [0x0a] ++ rest) = some (word.length + 41) ∧
    slice (word ++ [0x20] ++ Hash.toPlainStr h ++ [0x0a] ++ rest) (word.length + 1) (word.length + 41) =
      .ok (Hash.toPlainStr h) ∧
    sliceFrom (word ++ [0x20] ++ Hash.toPlainStr h ++ [0x0a] ++ rest) (word.length + 41 + 1) = .ok rest := by
  have hl := Hash.toPlainStr_length h
  refine ⟨findByte_at word (Hash.toPlainStr h ++ [0x0a] ++ rest) (by simp) hw1, ?_, ?_, ?_⟩
  · rw [findByte_at (word ++ [0x20] ++ Hash.toPlainStr h) rest (by simp)
      (by simp [hw2, toPlainStr_notin h 0x0a (by decide)])]
    simp [hl]
  · exact slice_at (word ++ [0x20]) _ ([0x0a] ++ rest) (by simp) (by simp) (by simp [hl])
  · exact sliceFrom_at (word ++ [0x20] ++ Hash.toPlainStr h ++ [0x0a]) _ (by simp) (by simp [hl])

theorem parentLoop_replicate (p : Hash) (rest : Bytes) (k : Nat) : ∀ n i, n + i = k →
    parentLoop (parentLine p ++ rest) (48 * k) (48 * i) = .ok (List.replicate n p) := by
  obtain ⟨h1, h2, h3, _⟩ := line_parse (ascii "parent") p rest (by decide) (by decide)
  have hlen : (ascii "parent").length = 6 := by decide
  rw [hlen] at h1 h2 h3
  change findByte 32 (parentLine p ++ rest) = _ at h1
  change findByte 10 (parentLine p ++ rest) = _ at h2
  change slice (parentLine p ++ rest) _ _ = _ at h3
  intro n
  induction n with
  | zero => intro i hi; rw [parentLoop, dif_neg (by omega)]; rfl
  | succ n ih =>
    intro i hi
    rw [parentLoop, dif_pos (by omega), h1, h2]
    have := ih (i + 1) (by omega)
    have e : 48 * i + (6 + 41) + 1 = 48 * (i + 1) := by omega
    simp only [h3, Res.bind_ok, Hash.fromBytes_toPlainStr, Res.unwrapOpt_some, e, this, Res.pure_eq]
    rfl

/-- Parents the decoder returns for a commit with parents `ps`. -/
def decodedParents : List Hash → List Hash
  | [] => []
  | p :: ps => List.replicate (ps.length + 1) p

theorem commit_decode_encode (c : Commit) (h : Spec.CommitOk c) :
    Commit.decode c.encode = .ok { c with parents := decodedParents c.parents } := by
  set tail := c.committer.encode ++ [0x0a] ++ c.message with htail
  set aut := c.author.encode ++ [0x0a] ++ tail with haut
  set body := c.parents.flatMap parentLine ++ aut with hbody
  have henc : c.encode = ascii "tree" ++ [0x20] ++ Hash.toPlainStr c.treeId ++ [0x0a] ++ body := by
    simp [Commit.encode, htail, haut, hbody]
  obtain ⟨t1, t2, t3, t4⟩ := line_parse (ascii "tree") c.treeId body (by decide) (by decide)
  rw [← henc] at t1 t2 t3 t4
  obtain ⟨role, hrole⟩ := h.author_role
  have ha0 : aut = ascii "author" ++ (role ++ [0x20] ++ c.author.name ++ [0x20] ++ [0x3C] ++ c.author.email ++ [0x3E] ++ [0x20] ++
    decStr c.author.timestamp ++ [0x20] ++ c.author.timezone ++ [0x0a] ++ tail) := by
    simp [haut, AuthorSign.encode, ← hrole]
  have b1 : findSub (ascii "author") body = some (c.parents.flatMap parentLine).length := by
    have : ascii "author" = 97 :: 117 :: ascii "thor" := by decide
    rw [hbody, ha0, this]
    exact findSub_after _ _ _ (by decide) (parentLine_notin_u _)
  have hlen := parents_length c.parents
  have b2 : decodeParents body (c.parents.flatMap parentLine).length = .ok (decodedParents c.parents) := by
    rw [decodeParents]
    cases hp : c.parents with
    | nil =>
      have : parentLoop body ([].flatMap parentLine).length 0 = .ok [] := by
        rw [parentLoop, dif_neg (by simp)]
      simp only [this, decodedParents]
      split <;> rfl
    | cons p ps =>
      have hb : body = parentLine p ++ (ps.flatMap parentLine ++ aut) := by
        rw [hbody, hp]; simp
      have hf : findSub (ascii "parent") body = some 0 := by
        rw [hb, parentLine]
        have := findSub_here (ascii "parent") ([0x20] ++ Hash.toPlainStr p ++ [0x0a] ++ (ps.flatMap parentLine ++ aut))
          (by decide)
        simpa using this
      rw [hf]
      simp only [Option.isSome_some, if_true]
      rw [parents_length, hb]
      exact parentLoop_replicate p _ (p :: ps).length (p :: ps).length 0 (by simp)
  have b3 : sliceFrom body (c.parents.flatMap parentLine).length = .ok aut := sliceFrom_at _ _ rfl rfl
  have a1 : findByte 0x0a aut = some c.author.encode.length :=
    findByte_at _ tail (by simp [haut]) (sign_oneLine h.author_line)
  have a2 : slice aut 0 c.author.encode.length = .ok c.author.encode :=
    slice_at [] _ ([0x0a] ++ tail) (by simp [haut]) rfl (by simp)
  have a3 : sliceFrom aut (c.author.encode.length + 1) = .ok tail :=
    sliceFrom_at (c.author.encode ++ [0x0a]) _ (by simp [haut]) (by simp)
  have c1 : findByte 0x0a tail = some c.committer.encode.length :=
    findByte_at _ c.message (by simp [htail]) (sign_oneLine h.committer_line)
  have c2 : slice tail 0 c.committer.encode.length = .ok c.committer.encode :=
    slice_at [] _ ([0x0a] ++ c.message) (by simp [htail]) rfl (by simp)
  have c3 : sliceFrom tail (c.committer.encode.length + 1) = .ok c.message :=
    sliceFrom_at (c.committer.encode ++ [0x0a]) _ (by simp [htail]) (by simp)
  simp only [Commit.decode, t1, t2, t3, t4, Res.unwrapOpt_some, Res.bind_ok, Hash.fromBytes_toPlainStr, b1, b2, b3,
    a1, a2, a3, sign_decode_encode _ h.author, c1, c2, c3, sign_decode_encode _ h.committer, toStr_ok h.message,
    Res.pure_eq]

/-! ## Tags -/

theorem display_facts (t : ObjectType) (h : t = .commit ∨ t = .tree ∨ t = .blob ∨ t = .tag) :
    (0x0a : UInt8) ∉ t.display ∧ utf8Valid t.display = true ∧ ObjectType.fromString t.display = .ok t := by
  have h1 : utf8Valid t.display = true := by
    apply utf8Valid_ascii
    rcases h with rfl | rfl | rfl | rfl <;> decide
  refine ⟨?_, h1, ?_⟩ <;> rcases h with rfl | rfl | rfl | rfl <;> decide

/-- Everything but the message survives; the message is read from its first line feed on. -/
theorem tag_decode_encode (g : Tag) (h : Spec.TagOk g) :
    Tag.decode g.encode = (do
      let nl ← Res.unwrapOpt (findByte 0x0a g.message)
      let m ← sliceFrom g.message nl
      let m ← toStr m
      pure { g with message := m }) := by
  set d4 := g.message with hd4
  set d3 := g.tagger.encode ++ [0x0a] ++ d4 with hd3
  set d2 := ascii "tag" ++ [0x20] ++ g.tag ++ [0x0a] ++ d3 with hd2
  set d1 := ascii "type" ++ [0x20] ++ g.t.display ++ [0x0a] ++ d2 with hd1
  have henc : g.encode = ascii "object" ++ [0x20] ++ Hash.toPlainStr g.object ++ [0x0a] ++ d1 := by
    simp [Tag.encode, hd1, hd2, hd3, hd4]
  obtain ⟨o1, o2, o3, o4⟩ := line_parse (ascii "object") g.object d1 (by decide) (by decide)
  rw [← henc] at o1 o2 o3 o4
  have y1 : (0x20 : UInt8) ∉ ascii "type" := by decide
  have y2 : (0x0a : UInt8) ∉ ascii "type" := by decide
  obtain ⟨y3, y4, y5⟩ := display_facts g.t h.target
  have t1 : findByte 0x20 d1 = some (ascii "type").length :=
    findByte_at _ (g.t.display ++ [0x0a] ++ d2) (by simp [hd1]) y1
  have t2 : findByte 0x0a d1 = some (ascii "type" ++ [0x20] ++ g.t.display).length :=
    findByte_at _ d2 (by simp [hd1]) (by simp [y2, y3])
  have t3 : slice d1 ((ascii "type").length + 1) (ascii "type" ++ [0x20] ++ g.t.display).length = .ok g.t.display :=
    slice_at (ascii "type" ++ [0x20]) _ ([0x0a] ++ d2) (by simp [hd1]) (by simp) (by simp; omega)
  have t4 : sliceFrom d1 ((ascii "type" ++ [0x20] ++ g.t.display).length + 1) = .ok d2 :=
    sliceFrom_at (ascii "type" ++ [0x20] ++ g.t.display ++ [0x0a]) _ (by simp [hd1]) (by simp; omega)
  have g1 : findByte 0x20 d2 = some (ascii "tag").length :=
    findByte_at _ (g.tag ++ [0x0a] ++ d3) (by simp [hd2]) (by decide)
  have g2 : findByte 0x0a d2 = some (ascii "tag" ++ [0x20] ++ g.tag).length :=
    findByte_at _ d3 (by simp [hd2]) (by
      have : (0x0a : UInt8) ∉ ascii "tag" := by decide
      simp [this, h.name_line])
  have g3 : slice d2 ((ascii "tag").length + 1) (ascii "tag" ++ [0x20] ++ g.tag).length = .ok g.tag :=
    slice_at (ascii "tag" ++ [0x20]) _ ([0x0a] ++ d3) (by simp [hd2]) (by simp) (by simp; omega)
  have g4 : sliceFrom d2 ((ascii "tag" ++ [0x20] ++ g.tag).length + 1) = .ok d3 :=
    sliceFrom_at (ascii "tag" ++ [0x20] ++ g.tag ++ [0x0a]) _ (by simp [hd2]) (by simp; omega)
  have s1 : findSub (ascii "tagger") d3 = some 0 := by
    obtain ⟨role, hrole⟩ := h.tagger_role
    have : d3 = ascii "tagger" ++ (role ++ [0x20] ++ g.tagger.name ++ [0x20] ++ [0x3C] ++ g.tagger.email ++ [0x3E] ++ [0x20] ++
      decStr g.tagger.timestamp ++ [0x20] ++ g.tagger.timezone ++ [0x0a] ++ d4) := by
      simp [hd3, AuthorSign.encode, ← hrole]
    rw [this]
    exact findSub_here _ _ (by decide)
  have s2 : findByte 0x0a d3 = some g.tagger.encode.length :=
    findByte_at _ d4 (by simp [hd3]) (sign_oneLine h.tagger_line)
  have s3 : slice d3 0 g.tagger.encode.length = .ok g.tagger.encode :=
    slice_at [] _ ([0x0a] ++ d4) (by simp [hd3]) rfl (by simp)
  have s4 : sliceFrom d3 (g.tagger.encode.length + 1) = .ok d4 :=
    sliceFrom_at (g.tagger.encode ++ [0x0a]) _ (by simp [hd3]) (by simp)
  simp only [Tag.decode, o1, o2, o3, o4, Res.unwrapOpt_some, Res.bind_ok, Hash.fromBytes_toPlainStr, t1, t2, t3, t4,
    toStr_ok y4, y5, Res.unwrap_ok, g1, g2, g3, g4, toStr_ok h.name_text, s1, s2, s3, s4,
    sign_decode_encode _ h.tagger, Res.pure_eq]

theorem utf8Valid_cons_ascii (a : UInt8) (s : Bytes) (h : a < 0x80) : utf8Valid (a :: s) = utf8Valid s := by
  conv => lhs; unfold utf8Valid
  simp [h]

end Gust

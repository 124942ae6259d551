import Verif.Lemmas.CommitDecode
import Verif.Spec.GitObjects

/-! # Which objects in git's formats the decoders accept -/

namespace Gust

theorem toStr_panic {s : Bytes} (h : ¬ utf8Valid s = true) : toStr s = .panic := by simp [toStr, h]

theorem parseUsize_minus (s : Bytes) : parseUsize (0x2D :: s) = none := by
  simp [parseUsize, parseUnsigned, stripPlus, parseDigits, decCharValue]

theorem parseUsize_decStr_big {n : Nat} (h : ¬ n < U64) : parseUsize (decStr n) = none := by
  rw [parseUsize, parseUnsigned_noplus _ _ _ (decStr_ne_nil n)]
  · rw [decStr, parseDigits_toDigits (by omega) digitChar_dec]; simp [h]
  · rintro c hc rfl
    have := decStr_range n _ hc
    simp at this

/-- How a person is read. -/
def Spec.Person.sign (role : Bytes) (p : Spec.Person) : AuthorSign := { t := role, name := p.name, email := p.email, timestamp := p.seconds, timezone := p.zone }

theorem zone_ascii {p : Spec.Person} (h : p.Ok) : ∀ b ∈ p.zone, b.toNat < 128 ∧ b ≠ 0x0a := by
  obtain ⟨s, d, e, hs, _, hd⟩ := h.zone
  rw [e]
  intro b hb
  rcases List.mem_cons.1 hb with rfl | hb
  · rcases hs with rfl | rfl <;> decide
  · refine ⟨by have := (hd b hb).2; omega, ?_⟩
    rintro rfl
    have := (hd _ hb).1
    simp at this

theorem person_text (role : Bytes) {p : Spec.Person} (h : p.before = false) : (p.sign role).encode = role ++ [0x20] ++ p.text := by
  simp [AuthorSign.encode, Spec.Person.sign, Spec.Person.text, h, show ascii " <" = [0x20, 0x3C] from by decide, show ascii "> " = [0x3E, 0x20] from by decide, show ascii " " = [0x20] from by decide]

theorem person_oneLine {p : Spec.Person} (h : p.Ok) : (0x0a : UInt8) ∉ p.text := by
  have h1 : (0x0a : UInt8) ∉ decStr p.seconds := by
    intro hc; have := decStr_range _ _ hc; simp at this
  have h2 : (0x0a : UInt8) ∉ p.zone := fun hc => (zone_ascii h _ hc).2 rfl
  have h3 : (0x0a : UInt8) ∉ p.name := fun hc => (h.name _ hc).2.2.1 rfl
  have h4 : (0x0a : UInt8) ∉ p.email := fun hc => (h.email _ hc).2.2.1 rfl
  have h5 : (0x0a : UInt8) ∉ (if p.before = true then ascii "-" else []) := by split <;> decide
  unfold Spec.Person.text
  simp only [List.mem_append, h1, h2, h3, h4, h5, false_or, or_false, not_or]
  decide

open Classical in
/-- A person is read exactly if name and address are UTF-8 and the time is one since 1970. -/
theorem person_decode {role : Bytes} (hr : (0x20 : UInt8) ∉ role) (hr2 : (0x3C : UInt8) ∉ role) (hr3 : (0x3E : UInt8) ∉ role) (hru : utf8Valid role = true)
    {p : Spec.Person} (h : p.Ok) : AuthorSign.decode (role ++ [0x20] ++ p.text) = if p.Plain then .ok (p.sign role) else .panic := by
  have hz := utf8Valid_ascii p.zone (fun b hb => (zone_ascii h b hb).1)
  have n1 : (0x3C : UInt8) ∉ p.name := fun hc => (h.name _ hc).1 rfl
  have n2 : (0x3E : UInt8) ∉ p.name := fun hc => (h.name _ hc).2.1 rfl
  have n3 : (0x3E : UInt8) ∉ p.email := fun hc => (h.email _ hc).2.1 rfl
  set ts := (if p.before = true then ascii "-" else []) ++ decStr p.seconds with hts
  have ts1 : (0x20 : UInt8) ∉ ts := by
    have h1 : (0x20 : UInt8) ∉ (if p.before = true then ascii "-" else []) := by split <;> decide
    simp only [hts, List.mem_append, h1, space_notin_decStr, or_self, not_false_eq_true]
  have ts2 : utf8Valid ts = true := by
    rw [hts]
    split
    · rw [show ascii "-" = [0x2D] from by decide, List.singleton_append, utf8Valid_cons_ascii _ _ (by decide)]
      exact utf8Valid_decStr _
    · exact utf8Valid_decStr _
  set tl := ts ++ [0x20] ++ p.zone with htl
  have henc : role ++ [0x20] ++ p.text = role ++ [0x20] ++ p.name ++ [0x20, 0x3C] ++ p.email ++ [0x3E, 0x20] ++ tl := by
    simp [Spec.Person.text, htl, hts, show ascii " <" = [0x20, 0x3C] from by decide, show ascii "> " = [0x3E, 0x20] from by decide, show ascii " " = [0x20] from by decide]
  rw [henc]
  set d := role ++ [0x20] ++ p.name ++ [0x20, 0x3C] ++ p.email ++ [0x3E, 0x20] ++ tl with hd
  have e1 : findByte 0x20 d = some role.length := findByte_at role (p.name ++ [0x20, 0x3C] ++ p.email ++ [0x3E, 0x20] ++ tl) (by simp [hd]) hr
  have e2 : slice d 0 role.length = .ok role := slice_at [] role ([0x20] ++ p.name ++ [0x20, 0x3C] ++ p.email ++ [0x3E, 0x20] ++ tl) (by simp [hd]) rfl (by simp)
  have e3 : findByte 0x3C d = some (role ++ [0x20] ++ p.name ++ [0x20]).length :=
    findByte_at (role ++ [0x20] ++ p.name ++ [0x20]) (p.email ++ [0x3E, 0x20] ++ tl) (by simp [hd]) (by simp [hr2, n1])
  have e4 : findByte 0x3E d = some (role ++ [0x20] ++ p.name ++ [0x20, 0x3C] ++ p.email).length :=
    findByte_at (role ++ [0x20] ++ p.name ++ [0x20, 0x3C] ++ p.email) ([0x20] ++ tl) (by simp [hd]) (by simp [hr3, n2, n3])
  have e5 : slice d (role.length + 1) ((role ++ [0x20] ++ p.name ++ [0x20]).length - 1) = .ok p.name :=
    slice_at (role ++ [0x20]) p.name ([0x20, 0x3C] ++ p.email ++ [0x3E, 0x20] ++ tl) (by simp [hd]) (by simp) (by simp; omega)
  have e6 : slice d ((role ++ [0x20] ++ p.name ++ [0x20]).length + 1) (role ++ [0x20] ++ p.name ++ [0x20, 0x3C] ++ p.email).length = .ok p.email :=
    slice_at (role ++ [0x20] ++ p.name ++ [0x20, 0x3C]) p.email ([0x3E, 0x20] ++ tl) (by simp [hd]) (by simp; omega) (by simp; omega)
  have e7 : sliceFrom d ((role ++ [0x20] ++ p.name ++ [0x20, 0x3C] ++ p.email).length + 2) = .ok tl :=
    sliceFrom_at (role ++ [0x20] ++ p.name ++ [0x20, 0x3C] ++ p.email ++ [0x3E, 0x20]) tl (by simp [hd]) (by simp; omega)
  have e8 : findByte 0x20 tl = some ts.length := findByte_at _ p.zone (by simp [htl]) ts1
  have e9 : slice tl 0 ts.length = .ok ts := slice_at [] _ ([0x20] ++ p.zone) (by simp [htl]) rfl (by simp)
  have e10 : sliceFrom tl (ts.length + 1) = .ok p.zone := sliceFrom_at (ts ++ [0x20]) _ (by simp [htl]) (by simp)
  have hne : (role ++ [0x20] ++ p.name ++ [0x20]).length ≠ 0 := by simp
  have hp : parseUsize ts = if p.before = false ∧ p.seconds < 2 ^ 64 then some p.seconds else none := by
    rw [hts]
    cases p.before with
    | true =>
      rw [if_pos rfl, if_neg (by simp), show ascii "-" = [0x2D] from by decide]
      exact parseUsize_minus _
    | false =>
      rw [if_neg (by simp), List.nil_append]
      by_cases hs : p.seconds < 2 ^ 64
      · rw [if_pos ⟨rfl, hs⟩, parseUsize_decStr _ (by simpa [U64] using hs)]
      · rw [if_neg (fun k => hs k.2), parseUsize_decStr_big (by simpa [U64] using hs)]
  simp only [AuthorSign.decode, e1, e2, e3, e4, e5, e6, e7, e8, e9, e10, Res.unwrapOpt_some, Res.bind_ok, toStr_ok hru, toStr_ok ts2, hne, if_false, hp]
  unfold Spec.Person.Plain
  by_cases u1 : utf8Valid p.name = true
  · rw [toStr_ok u1, Res.bind_ok]
    by_cases u2 : utf8Valid p.email = true
    · rw [toStr_ok u2, Res.bind_ok]
      by_cases u3 : p.before = false ∧ p.seconds < 2 ^ 64
      · rw [if_pos u3, if_pos ⟨u1, u2, u3⟩, Res.unwrapOpt_some, Res.bind_ok, toStr_ok hz, Res.bind_ok]
        rfl
      · rw [if_neg u3, if_neg (fun k => u3 k.2.2)]
        rfl
    · rw [toStr_panic u2]
      exact (if_neg (fun k => u2 k.2.1)).symm
  · rw [toStr_panic u1]
    exact (if_neg (fun k => u1 k.1)).symm

open Classical in
/-- A commit in git's format is read exactly if all of it is UTF-8 and the times are since 1970. -/
theorem commitData_decode (c : Spec.CommitData) (h : c.Ok) : Commit.decode c.text = if c.Plain then
    .ok { treeId := c.tree, parents := decodedParents c.parents, author := c.author.sign (ascii "author"), committer := c.committer.sign (ascii "committer"), message := c.rest }
    else .panic := by
  set com := ascii "committer" ++ [0x20] ++ c.committer.text with hcom
  set tail := com ++ [0x0a] ++ c.rest with htail
  set au := ascii "author" ++ [0x20] ++ c.author.text with hau
  set aut := au ++ [0x0a] ++ tail with haut
  set body := c.parents.flatMap parentLine ++ aut with hbody
  have hpl : (fun p => ascii "parent " ++ Hash.toPlainStr p ++ ascii "\n") = parentLine := by
    funext p
    rw [parentLine, show ascii "parent " = ascii "parent" ++ [0x20] from by decide, show ascii "\n" = [0x0a] from by decide]
  have henc : c.text = ascii "tree" ++ [0x20] ++ Hash.toPlainStr c.tree ++ [0x0a] ++ body := by
    rw [Spec.CommitData.text, hpl]
    simp [htail, haut, hbody, hau, hcom, show ascii "tree " = ascii "tree" ++ [0x20] from by decide, show ascii "\n" = [0x0a] from by decide,
      show ascii "author " = ascii "author" ++ [0x20] from by decide, show ascii "committer " = ascii "committer" ++ [0x20] from by decide]
  obtain ⟨t1, t2, t3, t4⟩ := line_parse (ascii "tree") c.tree body (by decide) (by decide)
  rw [← henc] at t1 t2 t3 t4
  have b1 : findSub (ascii "author") body = some (c.parents.flatMap parentLine).length := by
    have : ascii "author" = 97 :: 117 :: ascii "thor" := by decide
    have ha0 : aut = ascii "author" ++ ([0x20] ++ c.author.text ++ [0x0a] ++ tail) := by simp [haut, hau]
    rw [hbody, ha0, this]
    exact findSub_after _ _ _ (by decide) (parentLine_notin_u _)
  have b2 : decodeParents body (c.parents.flatMap parentLine).length = .ok (decodedParents c.parents) := by
    rw [decodeParents]
    cases hp : c.parents with
    | nil =>
      have : parentLoop body ([].flatMap parentLine).length 0 = .ok [] := by
        rw [parentLoop, dif_neg (by simp)]
      simp only [this, decodedParents]
      split <;> rfl
    | cons p ps =>
      have hb : body = parentLine p ++ (ps.flatMap parentLine ++ aut) := by
        rw [hbody, hp]; simp
      have hf : findSub (ascii "parent") body = some 0 := by
        rw [hb, parentLine]
        have := findSub_here (ascii "parent") ([0x20] ++ Hash.toPlainStr p ++ [0x0a] ++ (ps.flatMap parentLine ++ aut))
          (by decide)
        simpa using this
      rw [hf]
      simp only [Option.isSome_some, if_true]
      rw [parents_length, hb]
      exact parentLoop_replicate p _ (p :: ps).length (p :: ps).length 0 (by simp)
  have b3 : sliceFrom body (c.parents.flatMap parentLine).length = .ok aut := sliceFrom_at _ _ rfl rfl
  have l1 : (0x0a : UInt8) ∉ au := by
    simp only [hau, List.mem_append, person_oneLine h.author, or_false]
    decide
  have l2 : (0x0a : UInt8) ∉ com := by
    simp only [hcom, List.mem_append, person_oneLine h.committer, or_false]
    decide
  have a1 : findByte 0x0a aut = some au.length := findByte_at _ tail (by simp [haut]) l1
  have a2 : slice aut 0 au.length = .ok au := slice_at [] _ ([0x0a] ++ tail) (by simp [haut]) rfl (by simp)
  have a3 : sliceFrom aut (au.length + 1) = .ok tail := sliceFrom_at (au ++ [0x0a]) _ (by simp [haut]) (by simp)
  have c1 : findByte 0x0a tail = some com.length := findByte_at _ c.rest (by simp [htail]) l2
  have c2 : slice tail 0 com.length = .ok com := slice_at [] _ ([0x0a] ++ c.rest) (by simp [htail]) rfl (by simp)
  have c3 : sliceFrom tail (com.length + 1) = .ok c.rest := sliceFrom_at (com ++ [0x0a]) _ (by simp [htail]) (by simp)
  have d1 : AuthorSign.decode au = if c.author.Plain then .ok (c.author.sign (ascii "author")) else .panic :=
    person_decode (by decide) (by decide) (by decide) (by decide +kernel) h.author
  have d2 : AuthorSign.decode com = if c.committer.Plain then .ok (c.committer.sign (ascii "committer")) else .panic :=
    person_decode (by decide) (by decide) (by decide) (by decide +kernel) h.committer
  simp only [Commit.decode, t1, t2, t3, t4, Res.unwrapOpt_some, Res.bind_ok, Hash.fromBytes_toPlainStr, b1, b2, b3, a1, a2, a3, d1]
  by_cases p1 : c.author.Plain
  · rw [if_pos p1]
    simp only [Res.bind_ok, c1, c2, c3, Res.unwrapOpt_some, d2]
    by_cases p2 : c.committer.Plain
    · rw [if_pos p2]
      simp only [Res.bind_ok]
      by_cases p3 : utf8Valid c.rest = true
      · rw [toStr_ok p3, if_pos ⟨p1, p2, p3⟩]
        rfl
      · rw [toStr_panic p3, if_neg (fun k => p3 k.2.2)]
        rfl
    · rw [if_neg p2, if_neg (fun k => p2 k.2.1)]
      rfl
  · rw [if_neg p1, if_neg (fun k => p1 k.1)]
    rfl

/-- What a mode means. -/
def Spec.modeType (m : Bytes) : TreeItemType :=
  if m = ascii "40000" then .tree else if m = ascii "100755" then .blobExecutable else if m = ascii "120000" then .link else if m = ascii "160000" then .commit else .blob

def Spec.EntryData.item (e : Spec.EntryData) : TreeItem := { mode := e.mode, itemType := Spec.modeType e.mode, id := e.id, filename := e.name }

theorem entry_ok {e : Spec.EntryData} (h : e.Ok) (hu : utf8Valid e.name = true) : Spec.TreeEntryOk e.item := by
  refine ⟨?_, h.name, hu⟩
  have := h.mode
  simp only [List.mem_cons, List.not_mem_nil, or_false] at this
  rcases this with m | m | m | m | m | m <;> simp only [Spec.EntryData.item, m] <;> decide

theorem entry_text (e : Spec.EntryData) : e.text = encodeTreeItem e.item := by
  rw [Spec.EntryData.text, encodeTreeItem, show ascii " " = [0x20] from by decide]
  rfl

/-- A directory in git's format is read exactly if all names are UTF-8. -/
theorem entries_decode : ∀ (es : List Spec.EntryData), (∀ e ∈ es, e.Ok) →
    ((∀ e ∈ es, utf8Valid e.name = true) ∧ decodeTree (es.flatMap Spec.EntryData.text) = .ok (es.map Spec.EntryData.item)) ∨
    ((∃ e ∈ es, ¬ utf8Valid e.name = true) ∧ decodeTree (es.flatMap Spec.EntryData.text) = .panic)
  | [], _ => .inl ⟨(by simp), decodeTree_nil⟩
  | e :: es, h => by
    have he := h e (.head _)
    by_cases hu : utf8Valid e.name = true
    · have h1 := decodeTreeItem_encode e.item (es.flatMap Spec.EntryData.text) (entry_ok he hu)
      have h2 := decodeTree_cons h1
      rw [← entry_text] at h2
      rw [List.flatMap_cons, h2]
      rcases entries_decode es (fun x hx => h x (.tail _ hx)) with ⟨k1, k2⟩ | ⟨⟨x, hx, k1⟩, k2⟩
      · refine .inl ⟨?_, by rw [k2]; rfl⟩
        intro x hx
        rcases List.mem_cons.1 hx with rfl | hx
        · exact hu
        · exact k1 x hx
      · exact .inr ⟨⟨x, .tail _ hx, k1⟩, by rw [k2]; rfl⟩
    · refine .inr ⟨⟨e, .head _, hu⟩, ?_⟩
      have hm : ∃ t, TreeItemType.fromMode e.mode = .ok t ∧ (0x20 : UInt8) ∉ e.mode ∧ (0 : UInt8) ∉ e.mode := by
        have := h e (.head _) |>.mode
        simp only [List.mem_cons, List.not_mem_nil, or_false] at this
        rcases this with m | m | m | m | m | m <;> rw [m] <;> exact ⟨_, rfl, by decide, by decide⟩
      obtain ⟨t, m1, m2, m3⟩ := hm
      set rest := es.flatMap Spec.EntryData.text
      rw [List.flatMap_cons]
      have e0 : e.text ++ rest = e.mode ++ [0x20] ++ e.name ++ [0] ++ e.id.1 ++ rest := by rw [Spec.EntryData.text, show ascii " " = [0x20] from by decide]
      have e1 : findByte 0x20 (e.text ++ rest) = some e.mode.length := findByte_at e.mode (e.name ++ [0] ++ e.id.1 ++ rest) (by simp [e0]) m2
      have e2 : slice (e.text ++ rest) 0 e.mode.length = .ok e.mode := slice_at [] e.mode ([0x20] ++ e.name ++ [0] ++ e.id.1 ++ rest) (by simp [e0]) rfl (by simp)
      have e3 : findByte 0 (e.text ++ rest) = some (e.mode ++ [0x20] ++ e.name).length :=
        findByte_at (e.mode ++ [0x20] ++ e.name) (e.id.1 ++ rest) (by simp [e0]) (by simp [m3, he.name])
      have e4 : slice (e.text ++ rest) (e.mode.length + 1) (e.mode ++ [0x20] ++ e.name).length = .ok e.name :=
        slice_at (e.mode ++ [0x20]) e.name ([0] ++ e.id.1 ++ rest) (by simp [e0]) (by simp) (by simp; omega)
      have item : decodeTreeItem (e.text ++ rest) = .panic := by
        simp only [decodeTreeItem, e1, e2, e3, e4, Res.unwrapOpt_some, Res.bind_ok, m1, Res.unwrap_ok, hu, Bool.not_false, if_true]
      have ne : e.text ++ rest ≠ [] := by rw [e0]; simp
      rw [decodeTree, if_neg ne]
      split <;> rename_i hh <;> rw [item] at hh <;> first | cases hh | rfl

theorem kindName_display {t : ObjectType} (h : t = .commit ∨ t = .tree ∨ t = .blob ∨ t = .tag) : Spec.kindName t = t.display := by
  rcases h with rfl | rfl | rfl | rfl <;> decide

theorem findSub_le {p l : Bytes} {i : Nat} (hp : p ≠ []) (h : findSub p l = some i) : i < l.length := by
  obtain ⟨r, hr⟩ := findSub_some h
  have := congrArg List.length hr
  rw [List.length_append, List.length_drop] at this
  have := List.length_pos_iff.2 hp
  omega

open Classical in
/-- An annotated tag in git's format is read exactly if it has a tagger, all of it is UTF-8 and the time is since 1970. -/
theorem tagData_decode (g : Spec.TagData) (h : g.Ok) : (∃ t, Tag.decode g.text = .ok t) ∧ g.Plain ∨ Tag.decode g.text = .panic ∧ ¬ g.Plain := by
  set d3 := (match g.tagger with | some p => ascii "tagger " ++ p.text ++ ascii "\n" | none => []) ++ ascii "\n" ++ g.message with hd3
  set d2 := ascii "tag" ++ [0x20] ++ g.name ++ [0x0a] ++ d3 with hd2
  set d1 := ascii "type" ++ [0x20] ++ g.kind.display ++ [0x0a] ++ d2 with hd1
  have henc : g.text = ascii "object" ++ [0x20] ++ Hash.toPlainStr g.object ++ [0x0a] ++ d1 := by
    rw [Spec.TagData.text, kindName_display h.kind]
    simp only [hd1, hd2, hd3, show ascii "object " = ascii "object" ++ [0x20] from by decide, show ascii "\n" = [0x0a] from by decide,
      show ascii "type " = ascii "type" ++ [0x20] from by decide, show ascii "tag " = ascii "tag" ++ [0x20] from by decide, List.append_assoc]
    rfl
  obtain ⟨o1, o2, o3, o4⟩ := line_parse (ascii "object") g.object d1 (by decide) (by decide)
  rw [← henc] at o1 o2 o3 o4
  have y1 : (0x20 : UInt8) ∉ ascii "type" := by decide
  have y2 : (0x0a : UInt8) ∉ ascii "type" := by decide
  obtain ⟨y3, y4, y5⟩ := display_facts g.kind h.kind
  have t1 : findByte 0x20 d1 = some (ascii "type").length :=
    findByte_at _ (g.kind.display ++ [0x0a] ++ d2) (by simp [hd1]) y1
  have t2 : findByte 0x0a d1 = some (ascii "type" ++ [0x20] ++ g.kind.display).length :=
    findByte_at _ d2 (by simp [hd1]) (by simp [y2, y3])
  have t3 : slice d1 ((ascii "type").length + 1) (ascii "type" ++ [0x20] ++ g.kind.display).length = .ok g.kind.display :=
    slice_at (ascii "type" ++ [0x20]) _ ([0x0a] ++ d2) (by simp [hd1]) (by simp) (by simp; omega)
  have t4 : sliceFrom d1 ((ascii "type" ++ [0x20] ++ g.kind.display).length + 1) = .ok d2 :=
    sliceFrom_at (ascii "type" ++ [0x20] ++ g.kind.display ++ [0x0a]) _ (by simp [hd1]) (by simp; omega)
  have g1 : findByte 0x20 d2 = some (ascii "tag").length :=
    findByte_at _ (g.name ++ [0x0a] ++ d3) (by simp [hd2]) (by decide)
  have g2 : findByte 0x0a d2 = some (ascii "tag" ++ [0x20] ++ g.name).length :=
    findByte_at _ d3 (by simp [hd2]) (by
      have : (0x0a : UInt8) ∉ ascii "tag" := by decide
      simp [this, h.name])
  have g3 : slice d2 ((ascii "tag").length + 1) (ascii "tag" ++ [0x20] ++ g.name).length = .ok g.name :=
    slice_at (ascii "tag" ++ [0x20]) _ ([0x0a] ++ d3) (by simp [hd2]) (by simp) (by simp; omega)
  have g4 : sliceFrom d2 ((ascii "tag" ++ [0x20] ++ g.name).length + 1) = .ok d3 :=
    sliceFrom_at (ascii "tag" ++ [0x20] ++ g.name ++ [0x0a]) _ (by simp [hd2]) (by simp; omega)
  simp only [Tag.decode, o1, o2, o3, o4, Res.unwrapOpt_some, Res.bind_ok, Hash.fromBytes_toPlainStr, t1, t2, t3, t4, toStr_ok y4, y5, Res.unwrap_ok, g1, g2, g3]
  by_cases u1 : utf8Valid g.name = true
  swap
  · rw [toStr_panic u1]
    exact .inr ⟨rfl, fun k => u1 k.1⟩
  simp only [toStr_ok u1, Res.bind_ok, g4]
  cases hg : g.tagger with
  | none =>
    refine .inr ⟨?_, fun k => by obtain ⟨p, e, _⟩ := k.2.1; rw [hg] at e; cases e⟩
    have e3 : d3 = 0x0a :: g.message := by
      rw [hd3, hg, show ascii "\n" = [0x0a] from by decide]
      rfl
    cases hs : findSub (ascii "tagger") d3 with
    | none => rfl
    | some b =>
      have hb : b ≠ 0 := by
        rintro rfl
        have := findSub_some hs
        rw [e3] at this
        obtain ⟨r, hr⟩ := this
        rw [show ascii "tagger" = 116 :: ascii "agger" from by decide] at hr
        cases hr
      have hn : findByte 0x0a d3 = some 0 := findByte_at [] g.message (by simp [e3]) (by simp)
      have hsl : slice d3 b 0 = .panic := by
        rw [slice, if_neg (by omega)]
      simp only [Res.unwrapOpt_some, Res.bind_ok, hn, hsl]
      rfl
  | some p =>
    have hp := h.tagger p hg
    set tg := ascii "tagger" ++ [0x20] ++ p.text with htg
    have e3 : d3 = tg ++ [0x0a] ++ ([0x0a] ++ g.message) := by
      rw [hd3, hg]
      simp only [htg, show ascii "\n" = [0x0a] from by decide, show ascii "tagger " = ascii "tagger" ++ [0x20] from by decide, List.append_assoc]
    have s1 : findSub (ascii "tagger") d3 = some 0 := by
      rw [e3, htg, List.append_assoc, List.append_assoc, List.append_assoc]
      exact findSub_here _ _ (by decide)
    have l1 : (0x0a : UInt8) ∉ tg := by
      simp only [htg, List.mem_append, person_oneLine hp, or_false]
      decide
    have s2 : findByte 0x0a d3 = some tg.length := findByte_at _ ([0x0a] ++ g.message) (by simp [e3]) l1
    have s3 : slice d3 0 tg.length = .ok tg := slice_at [] _ ([0x0a] ++ ([0x0a] ++ g.message)) (by simp [e3]) rfl (by simp)
    have s4 : sliceFrom d3 (tg.length + 1) = .ok ([0x0a] ++ g.message) := sliceFrom_at (tg ++ [0x0a]) _ (by simp [e3]) (by simp)
    have s5 : AuthorSign.decode tg = if p.Plain then .ok (p.sign (ascii "tagger")) else .panic :=
      person_decode (by decide) (by decide) (by decide) (by decide +kernel) hp
    have s6 : findByte 0x0a ([0x0a] ++ g.message) = some 0 := findByte_at [] g.message rfl (by simp)
    have s7 : sliceFrom ([0x0a] ++ g.message) 0 = .ok ([0x0a] ++ g.message) := sliceFrom_at [] _ rfl rfl
    have s8 : utf8Valid ([0x0a] ++ g.message) = utf8Valid g.message := utf8Valid_cons_ascii _ _ (by decide)
    simp only [Res.unwrapOpt_some, Res.bind_ok, s1, s2, s3, s4, s5]
    by_cases u2 : p.Plain
    · simp only [if_pos u2, Res.bind_ok, s6, s7, Res.unwrapOpt_some]
      by_cases u3 : utf8Valid g.message = true
      · rw [toStr_ok (s8.trans u3)]
        exact .inl ⟨⟨_, rfl⟩, u1, ⟨p, hg, u2⟩, u3⟩
      · rw [toStr_panic (by rw [s8]; exact u3)]
        exact .inr ⟨rfl, fun k => u3 k.2.2⟩
    · rw [if_neg u2]
      refine .inr ⟨rfl, fun k => ?_⟩
      obtain ⟨q, e, hq⟩ := k.2.1
      rw [hg] at e
      cases e
      exact u2 hq

end Gust

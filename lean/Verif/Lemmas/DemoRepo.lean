import Verif.Props.Head
import Verif.Props.Pack
import Verif.Props.Report

/-! A small repository and its pack, for examples and counterexamples -/

namespace Gust

/-- The root directory: a file `b` and a directory `src` with a file `a`. -/
def appItems : List TreeItem := [fileItem "b" (idOf polyExt (.blob, ascii "two")), dirItem "src" (idOf polyExt (.tree, encodeTree srcA))]

/-- Its commit. -/
def appCommit : Commit := { exampleCommit [] with treeId := idOf polyExt (.tree, encodeTree appItems) }

theorem appCommit_ok : Spec.CommitOk appCommit :=
  ⟨(exampleCommit_ok []).author, (exampleCommit_ok []).author_line, (exampleCommit_ok []).author_role, (exampleCommit_ok []).committer,
    (exampleCommit_ok []).committer_line, (exampleCommit_ok []).message⟩

theorem appCommit_decode : Commit.decode appCommit.encode = .ok appCommit := commit_decode_encode _ appCommit_ok

/-- All objects of the repository except the blob `src/a`. -/
def appThin : List MetaData :=
  [metaOf polyExt (.commit, appCommit.encode), metaOf polyExt (.tree, encodeTree appItems), metaOf polyExt (.tree, encodeTree srcA),
    metaOf polyExt (.blob, ascii "two")]

/-- The blob `src/a`. -/
def appBlob : MetaData := metaOf polyExt (.blob, ascii "one")

/-- All objects. -/
def appObjects : List MetaData := appThin ++ [appBlob]

theorem fileItem_ok (name : String) (id : Hash) (h : ∀ x ∈ ascii name, 0 < x.toNat ∧ x.toNat < 128) : Spec.TreeEntryOk (fileItem name id) :=
  ⟨by simp [fileItem], fun h0 => by have := (h _ h0).1; simp at this, utf8Valid_ascii _ (fun x hx => (h x hx).2)⟩

theorem appItems_decode : decodeTree (encodeTree appItems) = .ok appItems := by
  apply C08_tree_roundtrip
  intro i hi
  simp only [appItems, List.mem_cons, List.not_mem_nil, or_false] at hi
  rcases hi with rfl | rfl
  · exact fileItem_ok "b" _ (by decide)
  · exact dirItem_ok "src" _ (by decide)

theorem srcA_decode : decodeTree (encodeTree srcA) = .ok srcA := by
  apply C08_tree_roundtrip
  intro i hi
  simp only [srcA, List.mem_cons, List.not_mem_nil, or_false] at hi
  subst hi
  exact fileItem_ok "a" _ (by decide)

theorem appObjects_new : ∀ m ∈ appObjects, MetaData.new polyExt m.t m.data = .ok m := by
  intro m hm
  simp only [appObjects, appThin, appBlob, List.mem_append, List.mem_cons, List.not_mem_nil, or_false] at hm
  rcases hm with (rfl | rfl | rfl | rfl) | rfl 
  · exact new_metaOf polyExt (.commit, _) rfl
  · exact new_metaOf polyExt (.tree, _) rfl
  · exact new_metaOf polyExt (.tree, _) rfl
  · exact new_metaOf polyExt (.blob, _) rfl
  · exact new_metaOf polyExt (.blob, _) rfl

theorem appObjects_ids : (appObjects.map MetaData.id).Nodup := by decide +kernel

theorem appThin_sub : ∀ m ∈ appThin, m ∈ appObjects := fun _ hm => List.mem_append_left _ hm

theorem decodePack_magic {X : Ext} {St : ObjectSource} {fuel : Nat} {file : Bytes} {p : Pack} (h : decodePack X St fuel file = .ok p) :
    (ascii "PACK").isPrefixOf file = true := by
  simp only [decodePack, Res.bind_eq_ok] at h
  obtain ⟨⟨n, r⟩, h1, _⟩ := h
  obtain ⟨hd, rfl, hh⟩ := (C29_header_iff _ _ _).1 h1
  obtain ⟨x, hx⟩ : ∃ x, hd = ascii "PACK" ++ x := by
    have e := hh.2
    match hd, e with
    | a :: b :: c :: d :: x, e =>
      simp only [List.map_cons, List.cons_append, List.cons.injEq] at e
      refine ⟨x, ?_⟩
      rw [show a = 0x50 from UInt8.toNat_inj.1 e.1, show b = 0x41 from UInt8.toNat_inj.1 e.2.1, show c = 0x43 from UInt8.toNat_inj.1 e.2.2.1,
        show d = 0x4b from UInt8.toNat_inj.1 e.2.2.2.1]
      rfl
    | [], e => simp at e
    | [_], e => simp at e
    | [_, _], e => simp at e
    | [_, _, _], e => simp at e
  rw [hx, List.append_assoc]
  simp

/-- The pack of some of these objects. -/
theorem app_pack (St : ObjectSource) (ms : List MetaData) (hs : ∀ m ∈ ms, m ∈ appObjects) (h0 : ms ≠ []) (hn : ms.length < 2 ^ 32)
    (hoff : 12 + (encodeEntries polyExt ms).length ≤ 2 ^ 32) (fuel : Nat) :
    ∃ file p, (ascii "PACK").isPrefixOf file = true ∧ (∃ r, encodePack polyExt ms = .ok (r, file)) ∧
      decodePack polyExt St (fuel + 1) file = .ok p ∧ ∀ h m, p.result.hashObject h = some m ↔ m ∈ ms ∧ m.id = h := by
  obtain ⟨body, file, p, h1, _, h2, h3⟩ := C27_pack_roundtrip polyExt St ms (fun m hm => appObjects_new m (hs m hm))
    (fun a ha b hb e => List.inj_on_of_nodup_map appObjects_ids (hs a ha) (hs b hb) e)
    (by
      intro m hm
      have : ∀ m ∈ appObjects, m.data.length < 2 ^ 61 := by decide +kernel
      exact this m (hs m hm)) h0 hn hoff fuel
  exact ⟨file, p, decodePack_magic h2, ⟨_, h1⟩, h2, h3.byId⟩

end Gust

import Verif.Lemmas.RopeRead
/-
C11–C15: the text store refines a list of paragraphs.

`Repr st ps` (Spec/Paragraphs.lean) says that the stored text and index represent the list of
paragraphs `ps`.  Each theorem says: the operation does not panic and its result represents the
list one expects.  `C14_*` says how a represented document reads back.
-/
namespace Verif

/-! ## C11 -/

/-- Inserting text inside a paragraph changes that paragraph only. -/
theorem C11_insert_in_paragraph {st : RopeSt} {L R : List Para} {id : Nat} {a b t : List Char}
    (h : Repr st (L ++ (.block id, a ++ b) :: R)) :
    ∃ st', ropeInsertInBlock st id (utf8Len a) t = some st' ∧
      Repr st' (L ++ (.block id, a ++ t ++ b) :: R) := insertInBlock_repr t h

/-- Deleting text inside a paragraph changes that paragraph only. -/
theorem C11_delete_in_paragraph {st : RopeSt} {L R : List Para} {id : Nat} {a m b : List Char}
    (h : Repr st (L ++ (.block id, a ++ m ++ b) :: R)) :
    ∃ st', ropeDeleteInBlock st id (utf8Len a) (utf8Len a + utf8Len m) = some st' ∧
      Repr st' (L ++ (.block id, a ++ b) :: R) := deleteInBlock_repr h

/-- The same in terms of what is read: the edited paragraph reads as asked, all others as before. -/
theorem C11_reading {st : RopeSt} {ps : List Para} {id : Nat} {a m b t : List Char}
    (h : Repr st ps) (hm : (.block id, a ++ m ++ b) ∈ ps) :
    (∃ st1, ropeInsertInBlock st id (utf8Len a) t = some st1 ∧
      blockContent st1 id = some (a ++ t ++ (m ++ b)) ∧
      ∀ j, j ≠ id → blockContent st1 j = blockContent st j) ∧
    (∃ st2, ropeDeleteInBlock st id (utf8Len a) (utf8Len a + utf8Len m) = some st2 ∧
      blockContent st2 id = some (a ++ b) ∧
      ∀ j, j ≠ id → blockContent st2 j = blockContent st j) := by
  obtain ⟨L, R, rfl⟩ := List.append_of_mem hm
  have others : ∀ {c : List Char} {st' : RopeSt}, Repr st' (L ++ (.block id, c) :: R) →
      ∀ j, j ≠ id → blockContent st' j = blockContent st j := by
    intro c st' h' j hj
    by_cases hin : Marker.block j ∈ (L ++ R).map Prod.fst
    · obtain ⟨⟨m', x⟩, hx, hx'⟩ := List.mem_map.mp hin
      simp only at hx'; subst hx'
      rw [List.mem_append] at hx
      rw [blockContent_repr (c := x) h' (by rcases hx with hx | hx <;> simp [hx]),
        blockContent_repr (c := x) h (by rcases hx with hx | hx <;> simp [hx])]
    · have : ∀ c : List Char, Marker.block j ∉ (L ++ ((Marker.block id, c) : Para) :: R).map Prod.fst := by
        intro c hc
        apply hin
        simp only [List.map_append, List.map_cons, List.mem_append, List.mem_cons,
          Marker.block.injEq, hj, false_or] at hc ⊢
        exact hc
      rw [blockContent_absent h' (this _), blockContent_absent h (this _)]
  constructor
  · obtain ⟨st1, h1, h2⟩ := insertInBlock_repr (a := a) (b := m ++ b) t (by simpa using h)
    exact ⟨st1, h1, blockContent_repr h2 (by simp), others h2⟩
  · obtain ⟨st2, h1, h2⟩ := deleteInBlock_repr h
    exact ⟨st2, h1, blockContent_repr h2 (by simp), others h2⟩

/-- A document with a table, an empty paragraph and multi-byte text. -/
def sampleParas : List Para :=
  [(.block 1, ['h', 'é', 'y']), (.table 9, [objChar]), (.block 2, []), (.block 3, ['z'])]

theorem sampleParas_repr : Repr (mkSt sampleParas) sampleParas :=
  mkSt_repr (by decide) (by decide)

example : ∃ st', ropeInsertInBlock (mkSt sampleParas) 1 3 ['x', 'ÿ'] = some st' ∧
    Repr st' ([] ++ (.block 1, ['h', 'é'] ++ ['x', 'ÿ'] ++ ['y']) :: sampleParas.tail) :=
  C11_insert_in_paragraph (a := ['h', 'é']) (b := ['y']) sampleParas_repr

example : ∃ st', ropeDeleteInBlock (mkSt sampleParas) 1 1 3 = some st' ∧
    Repr st' ([] ++ (.block 1, ['h'] ++ ['y']) :: sampleParas.tail) :=
  C11_delete_in_paragraph (a := ['h']) (m := ['é']) (b := ['y']) sampleParas_repr

/-! ## C12 -/

theorem C12_split {st : RopeSt} {L R : List Para} {id new : Nat} {a b : List Char}
    (h : Repr st (L ++ (.block id, a ++ b) :: R))
    (hnew : Marker.block new ∉ (L ++ (.block id, a ++ b) :: R).map Prod.fst) :
    ∃ st', ropeSplitBlock st id (utf8Len a) new = some st' ∧
      Repr st' (L ++ (.block id, a) :: (.block new, b) :: R) := splitBlock_repr h hnew

/-- Merging keeps the prefix of the first and the suffix of the last paragraph; what lies between
goes away (tables between included). -/
theorem C12_merge {st : RopeSt} {L M R : List Para} {s e : Nat} {a1 b1 a2 b2 : List Char}
    (h : Repr st (L ++ (.block s, a1 ++ b1) :: (M ++ (.block e, a2 ++ b2) :: R))) :
    ∃ st', ropeMergeBlockRange st s (utf8Len a1) e (utf8Len a2) = some st' ∧
      Repr st' (L ++ (.block s, a1 ++ b2) :: R) := mergeBlockRange_repr h

theorem C12_remove {st : RopeSt} {L R : List Para} {id : Nat} {c : List Char}
    (h : Repr st (L ++ (.block id, c) :: R)) :
    ∃ st', ropeRemoveBlock st id = some st' ∧ Repr st' (L ++ R) := removeBlock_repr h

/-- Replacing the whole content works unless what follows is exactly one empty paragraph. -/
theorem C12_replace_partial {st : RopeSt} {L R : List Para} {id : Nat} {c t : List Char}
    (h : Repr st (L ++ (.block id, c) :: R)) (hR : ∀ m, R ≠ [(m, [])]) :
    ∃ st', ropeReplaceBlockContent st id t = some st' ∧
      Repr st' (L ++ (.block id, t) :: R) := by
  refine replaceContent_repr t h ?_
  rcases R with _ | ⟨⟨m, c'⟩, R⟩
  · simp
  · intro hs
    simp only [span_cons] at hs
    have h1 : utf8Len c' = 0 := by omega
    have h2 : R = [] := by
      cases R with
      | nil => rfl
      | cons p R => simp at hs; omega
    rw [utf8Len_eq_zero] at h1
    subst h1 h2
    exact hR m rfl

/-- It fails in the remaining case: replacing the text of a paragraph that is followed by one empty
last paragraph swallows the newline between them, and the replaced paragraph loses its last byte. -/
theorem C12_replace_fails :
    ∃ st st', Repr st [(.block 1, ['a', 'b']), (.block 2, [])] ∧
      ropeReplaceBlockContent st 1 ['x'] = some st' ∧
      blockContent st' 1 = some [] ∧ st'.rope = ['x'] :=
  ⟨mkSt [(.block 1, ['a', 'b']), (.block 2, [])], _, mkSt_repr (by decide) (by decide), rfl,
    by decide, by decide⟩

theorem C12_append_first {st : RopeSt} {id : Nat} {c : List Char} (h : Repr st []) :
    Repr (ropeAppendBlock st id c) [(.block id, c)] := appendFirst_repr c h

theorem C12_append {st : RopeSt} {ps : List Para} {id : Nat} {c : List Char} (h : Repr st ps)
    (hne : ps ≠ []) (hnew : Marker.block id ∉ ps.map Prod.fst) :
    Repr (ropeAppendBlock (ropeInsertBlockBoundary st) id c) (ps ++ [(.block id, c)]) :=
  appendNext_repr c h hne hnew

theorem C12_reset : Repr ropeReset [] := reset_repr

/-- Appending an empty paragraph works when the text is not empty. -/
theorem C12_append_empty_partial {st : RopeSt} {ps : List Para} {id : Nat} (h : Repr st ps)
    (hne : st.rope ≠ []) (hnew : Marker.block id ∉ ps.map Prod.fst) :
    Repr (ropeAppendEmptyBlock st id) (ps ++ [(.block id, [])]) := appendEmpty_repr h hne hnew

/-- On a document with one empty paragraph it registers the new paragraph at the same byte as the
old one; text then typed into the first paragraph shows up in the second. -/
theorem C12_append_empty_fails :
    ∃ st st', Repr st [(.block 1, [])] ∧
      ropeInsertInBlock (ropeAppendEmptyBlock st 2) 1 0 ['x'] = some st' ∧
      blockContent st' 1 = some [] ∧ blockContent st' 2 = some ['x'] :=
  ⟨mkSt [(.block 1, [])], _, mkSt_repr (by decide) (by decide), rfl, by decide, by decide⟩

/-- Inserting a new paragraph at the end of the text of an existing entry puts it right after. -/
theorem C12_insert_at_end_partial {st : RopeSt} {L R : List Para} {m : Marker} {c t : List Char}
    {new : Nat} (h : Repr st (L ++ (m, c) :: R))
    (hnew : Marker.block new ∉ (L ++ (m, c) :: R).map Prod.fst) :
    ∃ st', ropeInsertBlockAt st (utf8Len (joinNl ((L ++ [(m, c)]).map Prod.snd))) new t = some st' ∧
      Repr st' (L ++ (m, c) :: (.block new, t) :: R) := by
  have := insertBlockAt_repr t h hnew
  have he : utf8Len (joinNl ((L ++ [(m, c)]).map Prod.snd)) = span L + utf8Len c := by
    rw [joinNl_split]; simp
  rw [he]; exact this

/-- Inserting at the start byte of a following paragraph (what `top_level_frame_end_byte` returns
when another frame follows) moves that paragraph's text into the new one. -/
theorem C12_insert_at_start_fails :
    ∃ st st', Repr st [(.block 1, ['a']), (.block 2, ['b'])] ∧
      ropeInsertBlockAt st 2 3 [] = some st' ∧
      blockContent st' 2 = some [] ∧ blockContent st' 3 = some ['b'] :=
  ⟨mkSt [(.block 1, ['a']), (.block 2, ['b'])], _, mkSt_repr (by decide) (by decide), rfl,
    by decide, by decide⟩

example : ∃ st', ropeSplitBlock (mkSt sampleParas) 1 3 77 = some st' ∧
    Repr st' ([] ++ (.block 1, ['h', 'é']) :: (.block 77, ['y']) :: sampleParas.tail) :=
  C12_split (a := ['h', 'é']) (b := ['y']) sampleParas_repr (by decide)

example : ∃ st', ropeMergeBlockRange (mkSt sampleParas) 1 1 3 0 = some st' ∧
    Repr st' ([] ++ (.block 1, ['h'] ++ ['z']) :: []) :=
  C12_merge (a1 := ['h']) (b1 := ['é', 'y']) (M := [(.table 9, [objChar]), (.block 2, [])])
    (a2 := []) (b2 := ['z']) sampleParas_repr

example : ∃ st', ropeRemoveBlock (mkSt sampleParas) 3 = some st' ∧
    Repr st' (sampleParas.take 3 ++ []) :=
  C12_remove (c := ['z']) (R := []) (L := sampleParas.take 3) sampleParas_repr

example : ∃ st', ropeReplaceBlockContent (mkSt sampleParas) 2 ['q'] = some st' ∧
    Repr st' (sampleParas.take 2 ++ (.block 2, ['q']) :: [(.block 3, ['z'])]) :=
  C12_replace_partial (L := sampleParas.take 2) (c := []) (R := [(.block 3, ['z'])])
    sampleParas_repr (by simp)

example : Repr (ropeAppendEmptyBlock (mkSt sampleParas) 8) (sampleParas ++ [(.block 8, [])]) :=
  C12_append_empty_partial sampleParas_repr (by decide) (by decide)

/-! ## C13 -/

theorem C13_insert_before {st : RopeSt} {L R : List Para} {id tid : Nat} {c : List Char}
    (h : Repr st (L ++ (.block id, c) :: R))
    (hnew : Marker.table tid ∉ (L ++ (.block id, c) :: R).map Prod.fst) :
    ∃ st', ropeInsertTableAnchor st tid id false = some st' ∧
      Repr st' (L ++ (.table tid, [objChar]) :: (.block id, c) :: R) := insertTableBefore_repr h hnew

/-- Inserting a table after a paragraph works unless the paragraph is empty and the last one. -/
theorem C13_insert_after_partial {st : RopeSt} {L R : List Para} {id tid : Nat} {c : List Char}
    (h : Repr st (L ++ (.block id, c) :: R))
    (hnew : Marker.table tid ∉ (L ++ (.block id, c) :: R).map Prod.fst)
    (hlast : R ≠ [] ∨ c ≠ []) :
    ∃ st', ropeInsertTableAnchor st tid id true = some st' ∧
      Repr st' (L ++ (.block id, c) :: (.table tid, [objChar]) :: R) :=
  insertTableAfter_repr h hnew hlast

/-- After an empty last paragraph the entries end up out of order (the paragraph starts behind the
table that follows it), and reading that paragraph panics. -/
theorem C13_insert_after_fails :
    ∃ st st', Repr st [(.block 1, ['a']), (.block 2, [])] ∧
      ropeInsertTableAnchor st 9 2 true = some st' ∧
      st'.idx.entries = [(.block 1, 0), (.block 2, 6), (.table 9, 3)] ∧
      blockContent st' 2 = none :=
  ⟨mkSt [(.block 1, ['a']), (.block 2, [])], _, mkSt_repr (by decide) (by decide), rfl,
    by decide, by decide⟩

/-- Appending a table while importing. -/
theorem C13_append_partial {st : RopeSt} {ps : List Para} {tid : Nat} (h : Repr st ps)
    (hne : st.rope ≠ [] ∨ ps = []) (hnew : Marker.table tid ∉ ps.map Prod.fst) :
    Repr (ropeAppendTableAnchor st tid) (ps ++ [(.table tid, [objChar])]) := by
  by_cases h0 : ps = []
  · subst h0; exact appendTableAnchor_first_repr h
  · exact appendTableAnchor_repr h (hne.resolve_right h0) hnew

/-- A document consisting of one empty paragraph gets the table at the same byte. -/
theorem C13_append_fails :
    ∃ st, Repr st [(.block 1, [])] ∧
      (ropeAppendTableAnchor st 9).idx.entries = [(.block 1, 0), (.table 9, 0)] :=
  ⟨mkSt [(.block 1, [])], mkSt_repr (by decide) (by decide), by decide⟩

/-- Removing a table that something follows, or that follows a non-empty paragraph. -/
theorem C13_remove_partial {st : RopeSt} {L R : List Para} {tid : Nat}
    (h : Repr st (L ++ (.table tid, [objChar]) :: R))
    (hok : R ≠ [] ∨ ∃ L' m c, L = L' ++ [(m, c)] ∧ c ≠ []) :
    ∃ st', ropeRemoveTableAnchor st tid = some st' ∧ Repr st' (L ++ R) := by
  cases R with
  | cons p R => exact removeTable_mid_repr h
  | nil =>
    rcases hok with hok | ⟨L', m, c, rfl, hc⟩
    · exact absurd rfl hok
    · obtain ⟨st', h1, h2⟩ := removeTable_last_repr (L := L') (m := m) (c := c) (by simpa using h) hc
      exact ⟨st', h1, by simpa using h2⟩

/-- Removing a last table after an empty paragraph moves that paragraph's start, here below the end
of the one before it. -/
theorem C13_remove_fails :
    ∃ st st', Repr st [(.block 1, ['a', 'b', 'c', 'd']), (.block 2, []), (.table 9, [objChar])] ∧
      ropeRemoveTableAnchor st 9 = some st' ∧
      st'.idx.entries = [(.block 1, 0), (.block 2, 1)] ∧
      blockContent st' 1 = some [] ∧ blockContent st' 2 = some ['b', 'c', 'd', '\n'] :=
  ⟨mkSt [(.block 1, ['a', 'b', 'c', 'd']), (.block 2, []), (.table 9, [objChar])], _,
    mkSt_repr (by decide) (by decide), rfl, by decide, by decide, by decide⟩

/-- Removing the only entry of a document panics. -/
theorem C13_remove_sole_fails :
    ∃ st, Repr st [(.table 9, [objChar])] ∧ ropeRemoveTableAnchor st 9 = none :=
  ⟨mkSt [(.table 9, [objChar])], mkSt_repr (by decide) (by decide), by decide⟩

/-- Two states representing the same list of paragraphs agree in everything that can be read. -/
theorem Repr.unique {st st' : RopeSt} {ps : List Para} (h : Repr st ps) (h' : Repr st' ps) :
    st.rope = st'.rope ∧ st.idx.entries = st'.idx.entries ∧ st.idx.total = st'.idx.total ∧
      st.idx.pos = st'.idx.pos ∧ st.idx.anchors = st'.idx.anchors := by
  have he : st.idx.entries = st'.idx.entries := by rw [h.starts, h'.starts]
  have hr : st.rope = st'.rope := by rw [h.text, h'.text]
  refine ⟨hr, he, by rw [h.total, h'.total, hr], ?_, by rw [h.cache.anchors, h'.cache.anchors, he]⟩
  funext m
  apply Option.ext
  intro i
  rw [h.cache.pos, h'.cache.pos, he]

theorem RopeSt.ext' {st st' : RopeSt} (h1 : st.rope = st'.rope)
    (h2 : st.idx.entries = st'.idx.entries) (h3 : st.idx.total = st'.idx.total)
    (h4 : st.idx.pos = st'.idx.pos) (h5 : st.idx.anchors = st'.idx.anchors) : st = st' := by
  obtain ⟨r, ⟨e, t, p, a⟩⟩ := st
  obtain ⟨r', ⟨e', t', p', a'⟩⟩ := st'
  simp_all

/-- Inserting a table before a paragraph and removing it again restores the store exactly. -/
theorem C13_insert_before_remove {st : RopeSt} {L R : List Para} {id tid : Nat} {c : List Char}
    (h : Repr st (L ++ (.block id, c) :: R))
    (hnew : Marker.table tid ∉ (L ++ (.block id, c) :: R).map Prod.fst) :
    (ropeInsertTableAnchor st tid id false).bind (ropeRemoveTableAnchor · tid) = some st := by
  obtain ⟨st1, h1, r1⟩ := insertTableBefore_repr h hnew
  obtain ⟨st2, h2, r2⟩ := removeTable_mid_repr r1
  rw [h1, Option.bind_some, h2]
  obtain ⟨e1, e2, e3, e4, e5⟩ := Repr.unique r2 h
  rw [RopeSt.ext' e1 e2 e3 e4 e5]

/-- The same after a paragraph, when it is not an empty last one. -/
theorem C13_insert_after_remove_partial {st : RopeSt} {L R : List Para} {id tid : Nat} {c : List Char}
    (h : Repr st (L ++ (.block id, c) :: R))
    (hnew : Marker.table tid ∉ (L ++ (.block id, c) :: R).map Prod.fst)
    (hlast : R ≠ [] ∨ c ≠ []) :
    (ropeInsertTableAnchor st tid id true).bind (ropeRemoveTableAnchor · tid) = some st := by
  obtain ⟨st1, h1, r1⟩ := insertTableAfter_repr h hnew hlast
  have r1' : Repr st1 ((L ++ [(.block id, c)]) ++ (.table tid, [objChar]) :: R) := by simpa using r1
  obtain ⟨st2, h2, r2⟩ := C13_remove_partial r1' (by
    rcases hlast with h | h
    · exact Or.inl h
    · exact Or.inr ⟨L, .block id, c, rfl, h⟩)
  rw [h1, Option.bind_some, h2]
  obtain ⟨e1, e2, e3, e4, e5⟩ := Repr.unique r2 (by simpa using h)
  rw [RopeSt.ext' e1 e2 e3 e4 e5]

example : (ropeInsertTableAnchor (mkSt sampleParas) 5 2 false).bind (ropeRemoveTableAnchor · 5) =
    some (mkSt sampleParas) :=
  C13_insert_before_remove (L := sampleParas.take 2) (c := []) (R := [(.block 3, ['z'])])
    sampleParas_repr (by decide)

example : (ropeInsertTableAnchor (mkSt sampleParas) 5 3 true).bind (ropeRemoveTableAnchor · 5) =
    some (mkSt sampleParas) :=
  C13_insert_after_remove_partial (L := sampleParas.take 3) (c := ['z']) (R := [])
    sampleParas_repr (by decide) (by simp)

/-! ## C14 -/

/-- How a represented document reads back: the text of each paragraph, its length in characters,
and — without tables, in one frame — the plain text as the paragraphs joined by newlines. -/
theorem C14_reading {st : RopeSt} {ps : List Para} (h : Repr st ps) :
    (∀ id c, (.block id, c) ∈ ps →
      blockContent st id = some c ∧ blockCharLength st id = some c.length) ∧
    ((∀ p ∈ ps, p.1.isTable = false) →
      ropeFlatTextIfSimple st 1 = some (joinNl (ps.map Prod.snd))) ∧
    ((∃ p ∈ ps, p.1.isTable = true) → ropeFlatTextIfSimple st 1 = none) := by
  refine ⟨fun id c hm => ⟨blockContent_repr h hm, blockCharLength_repr h hm⟩, ?_, ?_⟩
  · intro ht
    unfold ropeFlatTextIfSimple
    rw [if_neg (by simp), if_neg, h.text]
    simp only [List.any_eq_true, not_exists, not_and]
    intro e he
    have : e.1 ∈ (layout 0 ps).map Prod.fst := by rw [← h.starts]; exact List.mem_map_of_mem he
    rw [layout_keys] at this
    obtain ⟨p, hp, hpe⟩ := List.mem_map.mp this
    rw [← hpe]; simp [ht p hp]
  · rintro ⟨p, hp, ht⟩
    unfold ropeFlatTextIfSimple
    rw [if_neg (by simp), if_pos]
    simp only [List.any_eq_true]
    have : p.1 ∈ st.idx.entries.map Prod.fst := by
      rw [h.starts, layout_keys]; exact List.mem_map_of_mem hp
    obtain ⟨e, he, hee⟩ := List.mem_map.mp this
    exact ⟨e, he, by rw [hee]; exact ht⟩

/-- The editing operations of the store. -/
inductive RopeOp where
  | insert (id off : Nat) (t : List Char)
  | delete (id a b : Nat)
  | split (id off new : Nat)
  | merge (s so e eo : Nat)
  | remove (id : Nat)
  | replace (id : Nat) (t : List Char)
  | append (id : Nat) (t : List Char)
  | appendEmpty (id : Nat)
  | insertAt (pos new : Nat) (t : List Char)
  | tableAt (tid target : Nat) (after : Bool)
  | appendTable (tid : Nat)
  | removeTable (tid : Nat)
  | reset

/-- Run one operation.  Appending puts a boundary first unless the document has no entry yet, as the
importers do. -/
def RopeOp.run : RopeOp → RopeSt → Option RopeSt
  | .insert id off t, st => ropeInsertInBlock st id off t
  | .delete id a b, st => ropeDeleteInBlock st id a b
  | .split id off new, st => ropeSplitBlock st id off new
  | .merge s so e eo, st => ropeMergeBlockRange st s so e eo
  | .remove id, st => ropeRemoveBlock st id
  | .replace id t, st => ropeReplaceBlockContent st id t
  | .append id t, st =>
    some (ropeAppendBlock (if st.idx.entries.isEmpty then st else ropeInsertBlockBoundary st) id t)
  | .appendEmpty id, st => some (ropeAppendEmptyBlock st id)
  | .insertAt pos new t, st => ropeInsertBlockAt st pos new t
  | .tableAt tid target after, st => ropeInsertTableAnchor st tid target after
  | .appendTable tid, st => some (ropeAppendTableAnchor st tid)
  | .removeTable tid, st => ropeRemoveTableAnchor st tid
  | .reset, _ => some ropeReset

/-- What each operation means for the list of paragraphs (with the cases where the code is known to
go wrong left out). -/
inductive ParaStep : RopeOp → List Para → List Para → Prop where
  | insert {L R id a b t} :
      ParaStep (.insert id (utf8Len a) t) (L ++ (.block id, a ++ b) :: R)
        (L ++ (.block id, a ++ t ++ b) :: R)
  | delete {L R id a m b} :
      ParaStep (.delete id (utf8Len a) (utf8Len a + utf8Len m)) (L ++ (.block id, a ++ m ++ b) :: R)
        (L ++ (.block id, a ++ b) :: R)
  | split {L R id new a b} (hnew : Marker.block new ∉ (L ++ (.block id, a ++ b) :: R).map Prod.fst) :
      ParaStep (.split id (utf8Len a) new) (L ++ (.block id, a ++ b) :: R)
        (L ++ (.block id, a) :: (.block new, b) :: R)
  | merge {L M R s e a1 b1 a2 b2} :
      ParaStep (.merge s (utf8Len a1) e (utf8Len a2))
        (L ++ (.block s, a1 ++ b1) :: (M ++ (.block e, a2 ++ b2) :: R))
        (L ++ (.block s, a1 ++ b2) :: R)
  | remove {L R id c} : ParaStep (.remove id) (L ++ (.block id, c) :: R) (L ++ R)
  | replace {L R id c t} (hR : ∀ m, R ≠ [(m, [])]) :
      ParaStep (.replace id t) (L ++ (.block id, c) :: R) (L ++ (.block id, t) :: R)
  | append {ps id t} (hnew : Marker.block id ∉ ps.map Prod.fst) :
      ParaStep (.append id t) ps (ps ++ [(.block id, t)])
  | appendEmpty {ps id} (hne : joinNl (ps.map Prod.snd) ≠ []) (hnew : Marker.block id ∉ ps.map Prod.fst) :
      ParaStep (.appendEmpty id) ps (ps ++ [(.block id, [])])
  | insertAt {L R m c new t} (hnew : Marker.block new ∉ (L ++ (m, c) :: R).map Prod.fst) :
      ParaStep (.insertAt (utf8Len (joinNl ((L ++ [(m, c)]).map Prod.snd))) new t)
        (L ++ (m, c) :: R) (L ++ (m, c) :: (.block new, t) :: R)
  | tableBefore {L R id tid c} (hnew : Marker.table tid ∉ (L ++ (.block id, c) :: R).map Prod.fst) :
      ParaStep (.tableAt tid id false) (L ++ (.block id, c) :: R)
        (L ++ (.table tid, [objChar]) :: (.block id, c) :: R)
  | tableAfter {L R id tid c} (hnew : Marker.table tid ∉ (L ++ (.block id, c) :: R).map Prod.fst)
      (hlast : R ≠ [] ∨ c ≠ []) :
      ParaStep (.tableAt tid id true) (L ++ (.block id, c) :: R)
        (L ++ (.block id, c) :: (.table tid, [objChar]) :: R)
  | appendTable {ps tid} (hne : joinNl (ps.map Prod.snd) ≠ [] ∨ ps = [])
      (hnew : Marker.table tid ∉ ps.map Prod.fst) :
      ParaStep (.appendTable tid) ps (ps ++ [(.table tid, [objChar])])
  | removeTable {L R tid} (hok : R ≠ [] ∨ ∃ L' m c, L = L' ++ [(m, c)] ∧ c ≠ []) :
      ParaStep (.removeTable tid) (L ++ (.table tid, [objChar]) :: R) (L ++ R)
  | reset {ps} : ParaStep .reset ps []

/-- Each operation refines its meaning and never panics. -/
theorem C14_step {st : RopeSt} {ps ps' : List Para} {op : RopeOp} (h : Repr st ps)
    (hs : ParaStep op ps ps') : ∃ st', op.run st = some st' ∧ Repr st' ps' := by
  cases hs with
  | insert => exact insertInBlock_repr _ h
  | delete => exact deleteInBlock_repr h
  | split hnew => exact splitBlock_repr h hnew
  | merge => exact mergeBlockRange_repr h
  | remove => exact removeBlock_repr h
  | replace hR => exact C12_replace_partial h hR
  | append hnew =>
    refine ⟨_, rfl, ?_⟩
    by_cases h0 : ps = []
    · subst h0
      rw [if_pos (by simp [h.starts, layout])]
      exact appendFirst_repr _ h
    · rw [if_neg]
      · exact appendNext_repr _ h h0 hnew
      · rw [h.starts, List.isEmpty_iff]
        intro hc
        apply h0
        have := congrArg List.length hc
        simpa using this
  | appendEmpty hne hnew => exact ⟨_, rfl, appendEmpty_repr h (by rw [h.text]; exact hne) hnew⟩
  | insertAt hnew => exact C12_insert_at_end_partial h hnew
  | tableBefore hnew => exact insertTableBefore_repr h hnew
  | tableAfter hnew hl => exact insertTableAfter_repr h hnew hl
  | appendTable hne hnew => exact ⟨_, rfl, C13_append_partial h (by rw [h.text]; exact hne) hnew⟩
  | removeTable hok => exact C13_remove_partial h hok
  | reset => exact ⟨_, rfl, reset_repr⟩

/-- A run of operations and what it means for the paragraphs. -/
inductive ParaRun : List RopeOp → List Para → List Para → Prop where
  | nil {ps} : ParaRun [] ps ps
  | cons {op ops ps ps' ps''} : ParaStep op ps ps' → ParaRun ops ps' ps'' → ParaRun (op :: ops) ps ps''

/-- After any history of operations (outside the cases listed as failing) that leaves the paragraphs
`ps'`, the plain text is those paragraphs joined by newlines. -/
theorem C14_history_partial {ops : List RopeOp} {ps ps' : List Para} {st : RopeSt} (h : Repr st ps)
    (hr : ParaRun ops ps ps') :
    ∃ st', ops.foldlM (fun s op => op.run s) st = some st' ∧ Repr st' ps' ∧
      ((∀ p ∈ ps', p.1.isTable = false) →
        ropeFlatTextIfSimple st' 1 = some (joinNl (ps'.map Prod.snd))) := by
  induction hr generalizing st with
  | nil => exact ⟨st, rfl, h, (C14_reading h).2.1⟩
  | cons hstep _ ih =>
    obtain ⟨st1, h1, r1⟩ := C14_step h hstep
    obtain ⟨st2, h2, r2⟩ := ih r1
    exact ⟨st2, by simp [List.foldlM_cons, h1, h2], r2⟩

/-- A run: type a document, split, put a table in, delete it, merge. -/
example : ParaRun
    [.append 1 ['a', 'b'], .append 2 ['é'], .split 1 1 3, .tableAt 7 3 true, .insert 2 2 ['!'],
      .removeTable 7, .merge 1 1 3 0]
    [] [(.block 1, ['a', 'b']), (.block 2, ['é', '!'])] := by
  refine .cons (.append (by decide)) (.cons (.append (by decide)) (.cons
    (ParaStep.split (L := []) (a := ['a']) (b := ['b']) (R := [(.block 2, ['é'])]) (by decide)) (.cons
    (ParaStep.tableAfter (L := [(.block 1, ['a'])]) (R := [(.block 2, ['é'])]) (by decide) (by simp)) (.cons
    (ParaStep.insert (L := [(.block 1, ['a']), (.block 3, ['b']), (.table 7, [objChar])])
      (a := ['é']) (b := []) (R := [])) (.cons
    (ParaStep.removeTable (L := [(.block 1, ['a']), (.block 3, ['b'])])
      (R := [(.block 2, ['é', '!'])]) (by simp)) (.cons
    (ParaStep.merge (L := []) (M := []) (a1 := ['a']) (b1 := []) (a2 := []) (b2 := ['b'])) .nil))))))

/-! ## C15 -/

/-- Resolving a character position: the paragraph and offset such that exactly that many characters
come before (the text before the paragraph, with its newlines, then `a`). -/
theorem C15_position_resolves {st : RopeSt} {L R : List Para} {id : Nat} {a b : List Char}
    (h : Repr st (L ++ (.block id, a ++ b) :: R))
    (hb : ∀ p ∈ L ++ (.block id, a ++ b) :: R, p.1.isTable = false) (p : Nat)
    (hp : p = (joinNl ((L ++ [(Marker.block id, a)]).map Prod.snd)).length) :
    findBlockAtCharPosition st (L ++ (.block id, a ++ b) :: R).length (p : Int) =
      some (some (id, (a.length : Int), (p : Int) - a.length)) := by
  have : p = charsBefore L + a.length := by
    rw [hp, joinNl_split]; simp [length_preText]
  subst this
  rw [findBlock_repr h hb]
  simp

/-- Every position of the document is resolved, and positions outside are clamped. -/
theorem C15_total_and_clamped {st : RopeSt} {ps : List Para} (h : Repr st ps) (hne : ps ≠ [])
    (hb : ∀ p ∈ ps, p.1.isTable = false) :
    (∀ p : Nat, p ≤ st.rope.length →
      ∃ L id a b R, ps = L ++ (.block id, a ++ b) :: R ∧
        p = (joinNl ((L ++ [(.block id, a)]).map Prod.snd)).length) ∧
    (∀ p : Int, p < 0 →
      findBlockAtCharPosition st ps.length p = findBlockAtCharPosition st ps.length 0) ∧
    (∀ p : Int, st.rope.length < p →
      findBlockAtCharPosition st ps.length p = findBlockAtCharPosition st ps.length st.rope.length) := by
  refine ⟨?_, ?_, ?_⟩
  · intro p hp
    rw [h.text] at hp
    obtain ⟨L, m, a, b, R, h1, h2⟩ := position_cover ps hne p hp
    have hm := hb (m, a ++ b) (by simp [h1])
    cases m with
    | table t => simp [Marker.isTable] at hm
    | block id =>
      refine ⟨L, id, a, b, R, h1, ?_⟩
      rw [h2, joinNl_split]; simp [length_preText]
  · intro p hp
    unfold findBlockAtCharPosition
    have : max 0 (min p (st.rope.length : Int)) = max 0 (min 0 (st.rope.length : Int)) := by omega
    rw [this]
  · intro p hp
    unfold findBlockAtCharPosition
    have : max 0 (min p (st.rope.length : Int)) =
      max 0 (min (st.rope.length : Int) (st.rope.length : Int)) := by omega
    rw [this]

/-- A paragraph's own position is the number of characters before it, whatever stale value is
stored with it; and character offsets inside it map to the right byte. -/
theorem C15_own_position {st : RopeSt} {L R : List Para} {id : Nat} {a b : List Char} (stored : Int)
    (h : Repr st (L ++ (.block id, a ++ b) :: R)) :
    blockDocumentPosition st id stored =
      some ((joinNl ((L ++ [(Marker.block id, [])]).map Prod.snd)).length : Int) ∧
    blockCharToByteInBlock st id a.length = some (utf8Len a, utf8Len (a ++ b)) ∧
    ∀ n, (a ++ b).length ≤ n →
      blockCharToByteInBlock st id n = some (utf8Len (a ++ b), utf8Len (a ++ b)) := by
  refine ⟨?_, blockCharToByte_repr h (by simp), fun n hn => blockCharToByte_clamp h (by simp) hn⟩
  rw [blockDocumentPosition_repr stored h, joinNl_split]
  simp [length_preText]

/-- Documents with a table, or with paragraphs missing from the index, are declined (the slow walk
is used instead). -/
theorem C15_declined {st : RopeSt} {ps : List Para} (h : Repr st ps) (blocks : Nat) (p : Int)
    (hd : (∃ q ∈ ps, q.1.isTable = true) ∨ ps.length ≠ blocks) :
    findBlockAtCharPosition st blocks p = some none ∧ ropePositionsMatchFlow st blocks = false := by
  by_cases ht : ∃ q ∈ ps, q.1.isTable = true
  · have : st.idx.anchors > 0 := by
      rw [h.cache.anchors, anchors_eq_keys, h.starts, layout_keys]
      obtain ⟨q, hq, hqt⟩ := ht
      apply List.length_pos_of_mem (a := q.1)
      rw [List.mem_filter]
      exact ⟨List.mem_map_of_mem hq, hqt⟩
    simp [findBlockAtCharPosition, ropePositionsMatchFlow, this]
  · have hl := hd.resolve_left ht
    unfold findBlockAtCharPosition ropePositionsMatchFlow
    have : st.idx.entries.length = ps.length := by rw [h.starts]; simp
    rw [this]
    constructor
    · split <;> simp
    · split
      · rfl
      · simp [hl]

def samplePlain : List Para := [(.block 1, ['h', 'é']), (.block 2, []), (.block 3, ['z', 'w'])]

theorem samplePlain_repr : Repr (mkSt samplePlain) samplePlain := mkSt_repr (by decide) (by decide)

example : findBlockAtCharPosition (mkSt samplePlain) 3 ((5 : Nat) : Int) =
    some (some (3, ((1 : Nat) : Int), ((5 : Nat) : Int) - 1)) :=
  C15_position_resolves (L := samplePlain.take 2) (a := ['z']) (b := ['w']) (R := [])
    samplePlain_repr (by decide) 5 (by decide)

end Verif

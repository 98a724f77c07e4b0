import Verif.Lemmas.ImportDone
import Verif.Lemmas.Import
import Verif.Model.Inspect
/-
C75: loading Markdown or HTML, from the parsed elements on.
-/
namespace Verif
variable {s : Store} {d : Document} {f : Nat} {ps : List SPara}

/-- A document without tables that a text can be loaded into: one frame with its paragraphs, nothing else in the
store, positions and lists in order. -/
structure Ready (s : Store) (d : Document) (f : Nat) (ps : List SPara) : Prop where
  flat : Flat s d f ps
  sole : Sole d.id f s
  placed : Placed s ps
  lists : ListsOk s d ps
  tables : ∀ i, s.tables i = none
  frame : 0 < s.next "frame"

/-- A new document is one. -/
theorem C75_new_ready : ∃ s, Store.newStore = some s ∧ Ready s { id := 1, frames := [1] } 1 [⟨1, [], {}⟩] := by
  obtain ⟨s, e1, e2, e3, e4⟩ := newStore_flat
  refine ⟨s, e1, e2, e3, e4, ?_, ?_, ?_⟩
  · cases e1
    refine ⟨by simp, ?_, by simp, List.nodup_nil, ?_⟩
    · intro l h; cases h
    · intro l h; cases h
  · cases e1; intro i; rfl
  · cases e1; decide

/-- The whole import, for every list of elements with rectangular tables in every nesting of block quotes, of Markdown
(`html = false`) and HTML: it succeeds and returns the number of paragraphs.  The items seen are those that the elements
say, in their order, with their formats; list items join lists by the rule of C62 (a table or a change of block quotes ends all
lists), of the style and indent they ask for; the text is stored in order, every paragraph knows its position, the counts are
right, and the rest of the document entity stays. -/
theorem C75_import (h : Ready s d f ps) (html : Bool) (es : List ParsedElement)
    (hrect : ∀ rows, ParsedElement.table rows ∈ es → Rectangular rows) (hopen : OpensWell es) :
    ∃ s' d' items, s.importElements html es = some (((flowParas items).length : Int), s') ∧ SameDoc d d' ∧
      items.map SItem.face = facesOf html es (listsOf [] 0 (s.next "list") es) ∧
      ItemsFit s' es (listsOf [] 0 (s.next "list") es) ∧
      Carries s' (flowText items) (flowParas items) ((tablesOf items).map fun t => t.table.id) ∧
      Seated s' (flowParas items) ∧ s'.documents d.id = some d' ∧ Counted d' (flowParas items) ∧
      ListsOk s' d' (flowParas items) := by
  obtain ⟨s', d', items, a1, a2, a3, a4, a5, a6, a7, a8, a9, _⟩ :=
    h.flat.importElements h.sole h.lists h.tables h.frame html es hrect hopen
  exact ⟨s', d', items, a1, a2, a3, a4, a5, a6, a7, a8, a9⟩

/-- Without block quotes the result is a document of paragraphs and tables in one frame: everything said in C67–C74 holds
for it. -/
theorem C75_import_tabled (h : Ready s d f ps) (html : Bool) (es : List ParsedElement)
    (hrect : ∀ rows, ParsedElement.table rows ∈ es → Rectangular rows) (hopen : OpensWell es)
    (hq : ∀ b, ParsedElement.block b ∈ es → b.quoteDepth = 0) (hb : ∃ b, ParsedElement.block b ∈ es) :
    ∃ s' d' items, s.importElements html es = some (((flowParas items).length : Int), s') ∧ SameDoc d d' ∧
      items.map SItem.face = facesOf html es (listsOf [] 0 (s.next "list") es) ∧
      ItemsFit s' es (listsOf [] 0 (s.next "list") es) ∧
      Tabled s' d' (s.next "frame") items ∧ Seated s' (flowParas items) ∧ Counted d' (flowParas items) ∧
      ListsOk s' d' (flowParas items) := by
  obtain ⟨s', d', items, a1, a2, a3, a4, a5, a6, a7, a8, a9, a10⟩ :=
    h.flat.importElements h.sole h.lists h.tables h.frame html es hrect hopen
  refine ⟨s', d', items, a1, a2, a3, a4, (a10 hq ?_).1, a6, a8, a9⟩
  obtain ⟨b, hb⟩ := hb
  have hlen : ∀ (past : Imported) (dep fr : Nat) (es : List ParsedElement), (listsOf past dep fr es).length = es.length := by
    intro past dep fr es
    induction es generalizing past dep fr with
    | nil => rfl
    | cons e es ih => cases e <;> simp [listsOf, ih]
  have : ∃ p, Face.para p ∈ facesOf html es (listsOf [] 0 (s.next "list") es) := by
    have hz : (es.zip (listsOf [] 0 (s.next "list") es)).map Prod.fst = es := by
      rw [List.map_fst_zip]; rw [hlen]; exact Nat.le_refl _
    have : ParsedElement.block b ∈ (es.zip (listsOf [] 0 (s.next "list") es)).map Prod.fst := by rw [hz]; exact hb
    obtain ⟨x, hx, e⟩ := List.mem_map.mp this
    refine ⟨(spansChars b.isCodeBlock b.spans, parsedShape html b x.2), ?_⟩
    unfold facesOf
    rw [List.mem_flatMap]
    refine ⟨x, hx, ?_⟩
    rw [e]; simp [faceOf]
  obtain ⟨p, hp⟩ := this
  rw [← a3] at hp
  obtain ⟨it, hit, e⟩ := List.mem_map.mp hp
  cases it with
  | table t => cases e
  | para q =>
    intro hn
    have : q ∈ topParas items := by
      unfold topParas
      rw [List.mem_flatMap]
      exact ⟨.para q, hit, by simp⟩
    rw [hn] at this; cases this

/-- Only paragraphs: the result can be loaded into again, and C16–C66 hold for it. -/
theorem C75_import_flat (h : Ready s d f ps) (html : Bool) (bs : List ParsedBlock) (hne : bs ≠ [])
    (hq : ∀ b ∈ bs, b.quoteDepth = 0) :
    ∃ s' d' qs, s.importElements html (bs.map .block) = some ((qs.length : Int), s') ∧ SameDoc d d' ∧
      Ready s' d' (s.next "frame") qs ∧ Counted d' qs ∧
      qs.map SPara.face = (bs.zip (listsOf [] 0 (s.next "list") (bs.map .block))).map
        (fun x => (spansChars x.1.isCodeBlock x.1.spans, parsedShape html x.1 x.2)) := by
  have hno : ∀ (bs : List ParsedBlock), startsTable (bs.map .block) = false := by
    intro bs; cases bs <;> rfl
  obtain ⟨s', d', items, a1, a2, a3, a4, a5, a6, a7, a8, a9, a10⟩ :=
    h.flat.importElements h.sole h.lists h.tables h.frame html (bs.map .block) (by intro rows hr; simp at hr)
      (by
        cases bs with
        | nil => exact trivial
        | cons b bs => intro _; exact hno bs)
  have hfaces : ∀ (bs : List ParsedBlock) (ls : List (Option Nat)), facesOf html (bs.map .block) ls =
      (bs.zip ls).map fun x => Face.para (spansChars x.1.isCodeBlock x.1.spans, parsedShape html x.1 x.2) := by
    intro bs
    induction bs with
    | nil => intro ls; rfl
    | cons b bs ih =>
      intro ls
      cases ls with
      | nil => rfl
      | cons l ls =>
        have := ih ls
        unfold facesOf at this ⊢
        simp only [List.map_cons, List.zip_cons_cons, List.flatMap_cons, this]
        rfl
  rw [hfaces] at a3
  have hsplit : ∀ (items : List SItem) (fs : List ParaFace), items.map SItem.face = fs.map Face.para →
      tablesOf items = [] ∧ topParas items = flowParas items ∧ (flowParas items).map SPara.face = fs := by
    intro items
    induction items with
    | nil => intro fs e; cases fs with
      | nil => exact ⟨rfl, rfl, rfl⟩
      | cons _ _ => simp at e
    | cons it items ih =>
      intro fs e
      cases fs with
      | nil => simp at e
      | cons g fs =>
        simp only [List.map_cons, List.cons.injEq] at e
        obtain ⟨b1, b2, b3⟩ := ih fs e.2
        cases it with
        | table t => cases e.1
        | para q =>
          have hqf : q.face = g := by have := e.1; simp only [SItem.face, Face.para.injEq] at this; exact this
          refine ⟨b1, ?_, ?_⟩
          · show q :: topParas items = q :: flowParas items
            rw [b2]
          · show (q :: flowParas items).map SPara.face = _
            rw [List.map_cons, b3, hqf]
  have hmm : items.map SItem.face = ((bs.zip (listsOf [] 0 (s.next "list") (bs.map .block))).map
      (fun x => (spansChars x.1.isCodeBlock x.1.spans, parsedShape html x.1 x.2))).map Face.para := by
    rw [a3, List.map_map]; rfl
  obtain ⟨b1, b2, b3⟩ := hsplit items _ hmm
  have hlen : ∀ (past : Imported) (dep fr : Nat) (es : List ParsedElement), (listsOf past dep fr es).length = es.length := by
    intro past dep fr es
    induction es generalizing past dep fr with
    | nil => rfl
    | cons e es ih => cases e <;> simp [listsOf, ih]
  have hpn : flowParas items ≠ [] := by
    intro e
    rw [e] at b3
    have := congrArg List.length b3
    simp [hlen] at this
    exact hne (List.eq_nil_of_length_eq_zero this.symm)
  obtain ⟨c1, c2⟩ := a10 (by intro b hb; simp at hb; exact hq b hb) (by rw [b2]; exact hpn)
  obtain ⟨c3, c4, c5⟩ := c2 b1
  have hid : d'.id = d.id := a2.id
  refine ⟨s', d', flowParas items, a1, a2, ⟨c1.flat b1, by rw [hid]; exact c3, placed_of_seated a6, a9, c4, c5⟩, a8, b3⟩

/-- So any number of such loads one after the other works, and the last one is what is seen. -/
theorem C75_loads (h : Ready s d f ps) (html : Bool) : ∀ (loads : List (List ParsedBlock)),
    (∀ bs ∈ loads, bs ≠ [] ∧ ∀ b ∈ bs, b.quoteDepth = 0) →
    ∃ s' d' f' qs, loads.foldlM (fun s bs => (s.importElements html (bs.map .block)).map Prod.snd) s = some s' ∧ SameDoc d d' ∧
      Ready s' d' f' qs ∧
      ∀ bs, loads.getLast? = some bs → qs.map SPara.chars = bs.map (fun b => spansChars b.isCodeBlock b.spans) ∧ Counted d' qs := by
  intro loads
  induction loads generalizing s d f ps with
  | nil => intro _; exact ⟨s, d, f, ps, rfl, rfl, h, by intro bs e; cases e⟩
  | cons b0 loads ih =>
    intro hall
    obtain ⟨k1, k2⟩ := hall b0 (by simp)
    obtain ⟨s1, d1, qs, e1, e2, e3, e4, e5⟩ := C75_import_flat h html b0 k1 k2
    obtain ⟨s', d', f', rs, g1, g2, g3, g4⟩ := ih e3 (fun bs hbs => hall bs (List.mem_cons_of_mem _ hbs))
    refine ⟨s', d', f', if loads = [] then qs else rs, ?_, e2.trans g2, ?_, ?_⟩
    · rw [List.foldlM_cons, e1]; exact g1
    · split
      · rename_i hl
        subst hl
        simp only [List.foldlM_nil, Option.pure_def, Option.some.injEq] at g1
        subst g1
        have hd : d1 = d' := by
          have h1 := e3.flat.document
          have h2 := g3.flat.document
          have hid : d'.id = d1.id := g2.id
          rw [hid, h1] at h2
          exact Option.some.inj h2
        have hf : s.next "frame" = f' := by
          have h1 := e3.flat.frames
          have h2 := g3.flat.frames
          rw [hd, h2] at h1
          simpa using h1.symm
        rw [← hd, ← hf]; exact e3
      · exact g3
    · intro bs hbs
      cases loads with
      | nil =>
        simp only [List.getLast?_singleton, Option.some.injEq] at hbs
        subst hbs
        rw [if_pos rfl]
        simp only [List.foldlM_nil, Option.pure_def, Option.some.injEq] at g1
        subst g1
        have hd : d1 = d' := by
          have h1 := e3.flat.document
          have h2 := g3.flat.document
          have hid : d'.id = d1.id := g2.id
          rw [hid, h1] at h2
          exact Option.some.inj h2
        refine ⟨?_, by rw [← hd]; exact e4⟩
        have := congrArg (List.map Prod.fst) e5
        rw [List.map_map, List.map_map] at this
        refine Eq.trans this ?_
        have hlen : ∀ (past : Imported) (dep fr : Nat) (es : List ParsedElement), (listsOf past dep fr es).length = es.length := by
          intro past dep fr es
          induction es generalizing past dep fr with
          | nil => rfl
          | cons e es ih => cases e <;> simp [listsOf, ih]
        have hz := List.map_fst_zip (l₁ := b0) (l₂ := listsOf [] 0 (s.next "list") (b0.map .block)) (by rw [hlen, List.length_map]; exact Nat.le_refl _)
        have hz := congrArg (List.map (fun b : ParsedBlock => spansChars b.isCodeBlock b.spans)) hz
        rw [List.map_map] at hz
        exact hz
      | cons b1 loads =>
        rw [if_neg (by simp)]
        exact g4 bs (by rw [← hbs, List.getLast?_cons_cons])

/-- A small document of everything: a bold heading, two list items, a table and a paragraph. -/
def markupSample : List ParsedElement :=
  [.block { spans := [{ text := ['a'], bold := true }, { text := ['b'] }], headingLevel := some 1 },
   .block { spans := [{ text := ['i'] }], listStyle := some .disc },
   .block { spans := [{ text := ['j'] }], listStyle := some .disc },
   .table [[[{ text := ['x'] }], []], [[], [{ text := ['y'] }]]],
   .block { spans := [{ text := ['c'] }] }]

/-- It meets the hypotheses of `C75_import_tabled`. -/
example : (∀ rows, ParsedElement.table rows ∈ markupSample → Rectangular rows) ∧ OpensWell markupSample ∧
    (∀ b, ParsedElement.block b ∈ markupSample → b.quoteDepth = 0) ∧ (∃ b, ParsedElement.block b ∈ markupSample) ∧
    listsOf [] 0 1 markupSample = [none, some 1, some 1, none, none] := by
  refine ⟨?_, ?_, ?_, ⟨{ spans := [{ text := ['c'] }] }, by simp [markupSample]⟩, by decide +kernel⟩
  · intro rows hr
    simp only [markupSample, List.mem_cons, reduceCtorEq, ParsedElement.table.injEq, List.not_mem_nil, or_false, false_or] at hr
    subst hr
    unfold Rectangular
    decide
  · intro _; rfl
  · intro b hb
    simp only [markupSample, List.mem_cons, reduceCtorEq, ParsedElement.block.injEq, List.not_mem_nil, or_false, false_or] at hb
    rcases hb with h | h | h | h <;> (subst h; rfl)

/-- Loading a document should clear the undo history, so that undo does nothing.  After `set_markdown` or `set_html` it does
not: undoing brings back the document before the import, or the counts of it, whichever the last command was. -/
theorem C75_history_fails : ∃ (e e1 e2 e3 : Session) (r r1 : Session × Option Int),
    (Session.new.bind fun e => e.setPlainText "one\ntwo".toList) = some e ∧
    (e.step 0 (.erase 2 5)).map Prod.fst = some e1 ∧
    e1.setElements false [.block { spans := [{ text := "xyz".toList }] }] = some e2 ∧
    e2.store.exportPlainText = some "xyz".toList ∧ e2.mgr.canUndo e2.sid = true ∧
    e2.step 1 .undo = some r ∧ r.1.store.exportPlainText = some "one\ntwo".toList ∧
    ((e.step 0 (.type 3 3 "!!".toList)).bind fun x => x.1.setElements false [.block { spans := [{ text := "xyz".toList }] }]) = some e3 ∧
    e3.step 1 .undo = some r1 ∧ r1.1.store.exportPlainText = some "xyz".toList ∧
    (r1.1.store.documents 1).map Document.characterCount = some 6 := by
  refine ⟨_, _, _, _, _, _, rfl, rfl, rfl, ?_, ?_, rfl, ?_, rfl, rfl, ?_, ?_⟩ <;> decide +kernel

/-- Loading should replace the whole document.  Tables, their cells and lists of the old document stay behind: the document
still counts them as its own. -/
theorem C75_leftovers_fails : ∃ (s s1 s2 : Store) (n n1 : Int),
    Store.newStore = some s ∧
    s.importElements false [.block { spans := [{ text := ['i'] }], listStyle := some .disc }, .table [[[{ text := ['x'] }]]]] = some (n, s1) ∧
    s1.importElements false [.block { spans := [{ text := ['c'] }] }] = some (n1, s2) ∧
    s2.exportPlainText = some ['c'] ∧ n1 = 1 ∧
    (s2.documents 1).map (fun d => (d.tables, d.lists)) = some ([1], [1]) ∧
    (s2.tables 1).isSome = true ∧ (s2.tableCells 1).isSome = true ∧ (s2.lists 1).isSome = true := by
  refine ⟨_, _, _, _, _, rfl, rfl, rfl, ?_, ?_, ?_, ?_, ?_, ?_⟩ <;> decide +kernel

/-- `OpensWell` is needed: when the first paragraph is empty and a table follows, they share a place in the stored text, and
what is typed into the first paragraph is not in the document. -/
theorem C75_opening_fails : ∃ (s s1 s2 : Store) (n : Int), Store.newStore = some s ∧
    s.importElements false [.block {}, .table [[[{ text := ['x'] }]]], .block { spans := [{ text := ['b'] }] }] = some (n, s1) ∧
    (s1.insertText ⟨0, 0, ['Q']⟩).map Prod.fst = some s2 ∧ s1.exportPlainText = s2.exportPlainText ∧
    s2.text.rope = ['Q', objChar, '\n', 'x', '\n', 'b'] := by
  refine ⟨_, _, _, _, rfl, rfl, rfl, ?_, ?_⟩ <;> decide +kernel

/-- Rectangular tables are needed: with a short row the paragraph after the table gets a position one too high, so that its
first character cannot be reached; with a long row it gets one too low. -/
theorem C75_ragged_fails : ∃ (s s1 s2 : Store) (n n1 : Int), Store.newStore = some s ∧
    s.importElements true [.block { spans := [{ text := ['a'] }] }, .table [[[{ text := ['x'] }], [{ text := ['y'] }]], [[{ text := ['z'] }]]],
      .block { spans := [{ text := ['b'] }] }] = some (n, s1) ∧
    s.importElements true [.block { spans := [{ text := ['a'] }] }, .table [[[{ text := ['x'] }]], [[{ text := ['y'] }], [{ text := ['z'] }]]],
      .block { spans := [{ text := ['b'] }] }] = some (n1, s2) ∧
    s1.text.rope = ['a', '\n', objChar, '\n', 'x', '\n', 'y', '\n', 'z', '\n', 'b'] ∧ s2.text.rope = s1.text.rope ∧
    s1.blocks.keys.map (fun i => (s1.blocks i).map Block.documentPosition) = [some 0, some 2, some 4, some 6, some 9] ∧
    s2.blocks.keys.map (fun i => (s2.blocks i).map Block.documentPosition) = [some 0, some 2, some 4, some 5, some 7] := by
  refine ⟨_, _, _, _, _, rfl, rfl, rfl, ?_, ?_, ?_, ?_⟩ <;> decide +kernel

end Verif

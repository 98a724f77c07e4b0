import Verif.Model.PasteMixed
import Verif.Props.PasteTable
import Verif.Lemmas.LaidMixed
/-
C97: pasting a fragment with paragraphs and tables.
-/
namespace Verif
open Store

/-- **C97.** A fragment with paragraphs and tables is never pasted over a selection. -/
theorem C97_refused (s : Store) {pos anchor : Int} (fbs : List FragBlock) (ts : List FragTable) (h : pos ≠ anchor) :
    s.insertMixed pos anchor fbs ts = none := by
  unfold Store.insertMixed
  split
  · rfl
  · rfl
  cases s.docId with
  | none => rfl
  | some i =>
    simp only [Option.bind_some]
    cases s.documents i with
    | none => rfl
    | some d => simp only [Option.bind_some, if_pos h]

/-- **C97.** Undoing the paste of a fragment with paragraphs and tables gives back the content, whatever the document. -/
theorem C97_undo {s s' : Store} {pos anchor : Int} {fbs : List FragBlock} {ts : List FragTable} {r : PasteResult} {snap : Snapshot}
    (h : s.insertMixed pos anchor fbs ts = some (s', r, snap)) : SameContent (s'.restoreUndo snap) s := by
  have : snap = s.snapshot := by
    unfold Store.insertMixed at h
    split at h
    · cases h
    · cases h
    simp only [Option.bind_eq_some_iff] at h
    obtain ⟨did, _, doc, _, h⟩ := h
    split at h
    · cases h
    simp only [Option.bind_eq_some_iff, Option.map_eq_some_iff] at h
    obtain ⟨root, _, pairs, _, ids, _, ⟨cur, i, o⟩, _, frame, _, content, _, ⟨b, a⟩, _, ⟨t', r'⟩, _, he⟩ := h
    cases he; rfl
  subst this
  exact (C27_undo_snapshot s s').1

/-! ### What goes wrong -/

/-- A paragraph of a fragment. -/
def fPara (t : String) : FragBlock := { text := t.toList, elements := [.text t.toList {}] }

/-- A heading of a fragment. -/
def fHead (t : String) : FragBlock := { fPara t with format := { fmtHeadingLevel := some 1 } }

/-- An item of a list of a fragment. -/
def fItem (t : String) : FragBlock := { fPara t with list := some {} }

/-- A table of one cell of a fragment, behind `i` paragraphs. -/
def fTable (i : Nat) (t : String) : FragTable := { rows := 1, columns := 1, cells := [plainCell t.toList], index := i }

/-- The case of `C97_undo`. -/
example : ∃ s s' : Store, ∃ r snap,
    (Store.newStore.bind fun s => s.importPlainText "abcd".toList) = some s ∧
    s.insertMixed 2 2 [fHead "X", fHead "Y"] [fTable 1 "t"] = some (s', r, snap) ∧
    s'.exportPlainText = some "ab\nX\nY\ncd\nt".toList ∧ s.exportPlainText = some "abcd".toList := by
  refine ⟨_, _, _, _, rfl, rfl, ?_⟩
  decide +kernel

/-! ### In the last paragraph -/

/-- **C97 (partial).** A fragment of paragraphs and tables, pasted with the caret in the last paragraph of a document of paragraphs:
the paragraph is split at the caret, and between its halves come the paragraphs and tables of the fragment in their order,
each paragraph with its text, formats and list, each table with its cells; a first or last paragraph without paragraph format
joins the half next to it.  All else stays as it is, the caret comes behind what was pasted, the stored positions are right,
and the count of paragraphs is.  The count of characters lacks those behind the caret if the first paragraph went into the
paragraph with the caret (`C97_count_fails`).  An empty paragraph must not be followed by a table (`C97_empty_before_table_fails`).
A caret before other paragraphs is missing: see `C97_empty_end_fails`. -/
theorem C97_at_end_partial {s : Store} {d : Document} {f : Nat} {P : List SPara} {p : SPara} {a b : List SChar} {items : List MixItem}
    (h : Tabled s d f ((P ++ [p]).map SItem.para)) (hp : Placed s (P ++ [p])) (hl : ListsOk s d (P ++ [p])) (hc : p.chars = a ++ b)
    (hparas : fragParas items ≠ []) (htables : fragTables items ≠ []) (hn : Numbered items)
    (htx : ∀ fb, MixItem.para fb ∈ items → fb.IsText)
    (htb : ∀ t, MixItem.table t ∈ items → t.void = false ∧ (∀ c ∈ t.cells, c.Simple) ∧ t.InOrder)
    (hgap : ∀ A fb t B, items = A ++ .para fb :: .table t :: B → fb.text ≠ []) (pos : Int)
    (hpos : pos = (charsBefore (paras P) + a.length : Nat)) :
    ∃ s' d' hd new tl r snap, s.insertMixed pos pos (fragParas items) (fragTables items) = some (s', r, snap) ∧
      MixPasted s' p a b items hd new tl ∧
      Tabled s' d' f (P.map SItem.para ++ .para hd :: (new ++ tl.map SItem.para)) ∧
      Placed s' (flowParas (P.map SItem.para ++ .para hd :: (new ++ tl.map SItem.para))) ∧
      ListsOk s' d' (flowParas (P.map SItem.para ++ .para hd :: (new ++ tl.map SItem.para))) ∧
      r.newPosition = docLen (flowParas (P.map SItem.para ++ .para hd :: (new ++ tl.map SItem.para))) - b.length ∧
      r.blocksAdded = (flowParas new).length + tl.length ∧
      d' = { d with
        frames := d'.frames
        tables := d'.tables
        lists := d'.lists
        blockCount := d.blockCount + ((flowParas new).length + tl.length)
        characterCount := d.characterCount + (charTotal (flowParas (P.map SItem.para ++ .para hd :: (new ++ tl.map SItem.para))) : Int) -
          charTotal (P ++ [p]) - (if mixEnters a items then b.length else 0) } ∧
      SameContent (s'.restoreUndo snap) s := by
  obtain ⟨fr, f1, _⟩ := h.frame
  cases hlast : (fragParas items).getLast? with
  | none => exact absurd (List.getLast?_eq_none_iff.mp hlast) hparas
  | some last =>
    obtain ⟨s', d', hd, new, tl, e1, e2, e3, e4, e5, e6⟩ := h.pasteMixed hp hl f1 hc htx htb hgap hlast
    have hflat := h.flat (tablesOf_paras _)
    rw [flowParas_map] at hflat
    have e := hflat.insertMixed_eq (R := []) hp f1 hc (fbs := fragParas items) htables hlast
    rw [mixItems_numbered hn, e1, Option.map_some, ← hpos] at e
    refine ⟨s', d', hd, new, tl, _, _, e, e5, e2, e3, e4, ?_, rfl, e6, (C27_undo_snapshot s s').1⟩
    dsimp only
    generalize hX : flowParas (P.map SItem.para ++ .para hd :: (new ++ tl.map SItem.para)) = X
    have hXne : X ≠ [] := by
      rw [← hX, flowParas_append, flowParas_para]; simp
    have := charsBefore_docLen hXne
    omega

/-- The hypotheses are met: the heading "X", a table with "t" and the paragraph "Y", pasted between "c" and "d" of "ab", "cd". -/
example : ∃ (s : Store) (d : Document) (s' : Store) (d' : Document) (hd q q' : SPara) (T : STable) (r : PasteResult) (snap : Snapshot),
    Tabled s d 2 ([⟨2, [('a', none), ('b', none)], {}⟩, ⟨3, [('c', none), ('d', none)], {}⟩].map SItem.para) ∧
    s.insertMixed 4 4 [fHead "X", fPara "Y"] [fTable 1 "t"] = some (s', r, snap) ∧
    Tabled s' d' 2 [.para ⟨2, [('a', none), ('b', none)], {}⟩, .para hd, .para q, .table T, .para q'] ∧ hd.text = ['c'] ∧ q.text = ['X'] ∧
    q.shape.fmtHeadingLevel = some 1 ∧ TableLike (fTable 1 "t") T ∧ q'.text = ['Y', 'd'] ∧
    s'.exportPlainText = some "ab\nc\nX\nYd\nt".toList := by
  obtain ⟨s, d, e0, hd, h, hpl⟩ := import_tabled "ab\ncd".toList
  have e : linesFrom 2 (Store.splitLines (unixText "ab\ncd".toList)) =
      [⟨2, [('a', none), ('b', none)], {}⟩] ++ [(⟨3, [('c', none), ('d', none)], {}⟩ : SPara)] := by decide +kernel
  rw [e] at h hpl
  have hx : ∀ (c : String), (fPara c).IsText ∧ (fHead c).IsText := by
    intro c
    refine ⟨⟨by simp [fPara], ?_⟩, ⟨by simp [fHead, fPara], ?_⟩⟩
    · simp [fPara, FragBlock.chars, styled, Function.comp_def]
    · simp [fHead, fPara, FragBlock.chars, styled, Function.comp_def]
  have hls : (∀ l, s.lists l = none) ∧ s.next "list" = 1 ∧ (s.documents 1).map Document.lists = some [] := by
    have e' := e0
    cases e'
    exact ⟨fun l => rfl, rfl, rfl⟩
  have hdl : d.lists = [] := by
    have h1 := hls.2.2
    have h2 := h.document
    rw [hd] at h2
    rw [h2] at h1; simpa using h1
  have hl : ListsOk s d ([⟨2, [('a', none), ('b', none)], {}⟩] ++ [(⟨3, [('c', none), ('d', none)], {}⟩ : SPara)]) := by
    refine ⟨?_, ?_, ?_, ?_, ?_⟩
    · intro l hl; rw [hdl] at hl; cases hl
    · intro l hl; rw [hls.1] at hl; cases hl
    · intro p hp l hpl
      simp only [List.cons_append, List.nil_append, List.mem_cons, List.not_mem_nil, or_false] at hp
      rcases hp with rfl | rfl <;> cases hpl
    · rw [hdl]; exact .nil
    · intro l hl; rw [hls.1] at hl; cases hl
  obtain ⟨s', d', hd', new, tl, r, snap, h1, h2, h3, h4, h5, h6, h7, h8, h9⟩ := C97_at_end_partial
    (items := [.para (fHead "X"), .table (fTable 1 "t"), .para (fPara "Y")]) (a := [('c', none)]) (b := [('d', none)]) h hpl hl rfl
    (by simp [fragParas]) (by simp [fragTables]) (by
      intro A t B e
      rcases A with _ | ⟨x, _ | ⟨y, _ | ⟨z, A⟩⟩⟩ <;> simp at e
      obtain ⟨rfl, rfl, rfl⟩ := e
      rfl) (by
      intro fb hfb
      simp only [List.mem_cons, MixItem.para.injEq, reduceCtorEq, List.not_mem_nil, or_false, false_or] at hfb
      rcases hfb with rfl | rfl
      · exact (hx _).2
      · exact (hx _).1) (by
      intro t ht
      simp only [List.mem_cons, MixItem.table.injEq, reduceCtorEq, List.not_mem_nil, or_false, false_or] at ht
      subst ht
      refine ⟨by decide, ?_, by simp [FragTable.InOrder, fTable]⟩
      intro c hc
      simp only [fTable, List.mem_singleton] at hc
      subst hc
      refine ⟨by decide, ?_⟩
      intro fb hfb
      simp only [plainCell, List.mem_singleton] at hfb
      subst hfb
      exact ⟨by simp, by simp [FragBlock.chars, styled]⟩) (by
      intro A fb t B e
      rcases A with _ | ⟨x, _ | ⟨y, _ | ⟨z, A⟩⟩⟩ <;> simp at e
      obtain ⟨rfl, _⟩ := e
      simp [fHead, fPara]) 4 (by decide)
  have hk : (Store.newStore.bind fun s => s.importPlainText "ab\ncd".toList).bind (fun s =>
      (s.insertMixed 4 4 [fHead "X", fPara "Y"] [fTable 1 "t"]).map fun r => r.1.exportPlainText) = some (some "ab\nc\nX\nYd\nt".toList) := by
    decide +kernel
  have h1' : s.insertMixed 4 4 [fHead "X", fPara "Y"] [fTable 1 "t"] = some (s', r, snap) := h1
  rw [e0, Option.bind_some, h1', Option.map_some, Option.some.injEq] at hk
  obtain ⟨rest, shape, mids, m1, m2, m3⟩ := h2
  cases m1 with
  | joined fb rest hd hi => exact absurd hi (by decide)
  | taken fb rest hd hi ha => cases ha
  | ended items hd hi hhd =>
    have hj : mixJoins [.para (fHead "X"), .table (fTable 1 "t"), .para (fPara "Y")] = true := by decide
    rw [hj] at m2
    generalize hI : [MixItem.para (fHead "X"), .table (fTable 1 "t"), .para (fPara "Y")] = I at m2
    cases m2 with
    | joined fb mids q' hq hs =>
      have hI' : [MixItem.para (fHead "X"), .table (fTable 1 "t")] ++ [.para (fPara "Y")] = mids ++ [.para fb] := hI
      obtain ⟨rfl, hfb⟩ := List.append_inj' hI' rfl
      simp only [List.cons.injEq, MixItem.para.injEq, and_true] at hfb
      subst hfb
      have q1 : (fHead "X").chars.map Prod.fst = ['X'] := by decide
      have q2 : (fHead "X").format.fmtHeadingLevel = some 1 := rfl
      have q3 : q'.text = ['Y', 'd'] := by
        show q'.chars.map Prod.fst = _
        rw [hq]; decide
      have q4 : hd'.text = ['c'] := by rw [hhd]; rfl
      rcases new with _ | ⟨x, _ | ⟨y, _ | ⟨z, new⟩⟩⟩
      · exact False.elim m3
      · exact False.elim m3.2
      · obtain ⟨m3, m4, _⟩ := m3
        cases x with
        | table _ => exact False.elim m3
        | para q =>
          cases y with
          | para _ => exact False.elim m4
          | table T =>
            have m3' : PastedOne s' (fHead "X") q := m3
            refine ⟨s, d, s', d', hd', q, q', T, r, snap, h, h1', h3, q4, ?_, ?_, m4, q3, hk⟩
            · show q.chars.map Prod.fst = _
              rw [m3'.chars]; exact q1
            · rw [m3'.format]; exact q2
      · exact False.elim m3.2.2
/-- **C97, negative.** A table behind an empty paragraph that is the last of the text damages the text: the headings "X" and ""
followed by a table, pasted behind "abcd", can not be read any more, and the document has no plain text. -/
theorem C97_empty_before_table_fails : ∃ s s' : Store, ∃ r snap,
    (Store.newStore.bind fun s => s.importPlainText "abcd".toList) = some s ∧
    s.insertMixed 4 4 [fHead "X", fHead ""] [fTable 2 "t"] = some (s', r, snap) ∧
    (s'.frames 2).map (fun c => c.childOrder) = some [2, 3, 4, -4] ∧
    blockContent s'.text 2 = some "abcd".toList ∧ blockContent s'.text 3 = none ∧ blockContent s'.text 4 = none ∧
    s'.exportPlainText = none := by
  refine ⟨_, _, _, _, rfl, rfl, ?_⟩
  decide +kernel

/-- **C97, negative.** Before a single empty last paragraph the last character in front of the caret is lost. -/
theorem C97_empty_end_fails : ∃ s s' : Store, ∃ r snap,
    (Store.newStore.bind fun s => s.importPlainText "abcd\n".toList) = some s ∧
    s.insertMixed 4 4 [fHead "X", fHead "Y"] [fTable 1 "t"] = some (s', r, snap) ∧
    blockContent s.text 2 = some "abcd".toList ∧ blockContent s'.text 2 = some "abc".toList := by
  refine ⟨_, _, _, _, rfl, rfl, ?_⟩
  decide +kernel

/-- **C97, negative.** When the first paragraph joins the text at the caret, the text behind the caret is taken off the count
of characters: "abX", "t" and "Ycd" are seven characters, the document says five. -/
theorem C97_count_fails : ∃ s s' : Store, ∃ r snap,
    (Store.newStore.bind fun s => s.importPlainText "abcd".toList) = some s ∧
    s.insertMixed 2 2 [fPara "X", fPara "Y"] [fTable 1 "t"] = some (s', r, snap) ∧
    s'.exportPlainText = some "abX\nYcd\nt".toList ∧
    (s'.documents 1).map (fun d => (d.blockCount, d.characterCount)) = some (3, 5) := by
  refine ⟨_, _, _, _, rfl, rfl, ?_⟩
  decide +kernel

/-- **C97, negative.** Two items of one list come to be in two lists when the first takes over the paragraph at the caret. -/
theorem C97_list_split_fails : ∃ s s' : Store, ∃ r snap,
    (Store.newStore.bind fun s => s.importPlainText "abcd".toList) = some s ∧
    s.insertMixed 0 0 [fItem "X", fItem "Y"] [fTable 2 "t"] = some (s', r, snap) ∧
    blockContent s'.text 2 = some "X".toList ∧ blockContent s'.text 3 = some "Y".toList ∧
    (s'.blocks 2).map (fun b => b.list) = some (some 1) ∧ (s'.blocks 3).map (fun b => b.list) = some (some 2) := by
  refine ⟨_, _, _, _, rfl, rfl, ?_⟩
  decide +kernel

/-- **C97, negative.** Behind a table with two cells the fragment comes a paragraph too late: of "ab", a table, "cd", "ef",
pasting in "cd" puts the fragment, with the rest "d" of the paragraph, behind "ef". -/
theorem C97_place_after_table_fails : ∃ s s1 s2 : Store, ∃ t1 q1 snap1 r snap2,
    (Store.newStore.bind fun s => s.importPlainText "ab\ncd\nef".toList) = some s ∧
    s.insertTable 2 2 1 2 = some (s1, t1, q1, snap1) ∧
    s1.insertMixed 6 6 [fHead "X", fHead "Y"] [fTable 1 "t"] = some (s2, r, snap2) ∧
    (s1.frames 2).map (fun c => c.childOrder) = some [2, -5, 3, 4] ∧
    (s2.frames 2).map (fun c => c.childOrder) = some [2, -5, 3, 4, 7, -7, 9, 10] ∧
    blockContent s2.text 3 = some ['c'] ∧ blockContent s2.text 10 = some ['d'] := by
  refine ⟨_, _, _, _, _, _, _, _, rfl, rfl, rfl, ?_⟩
  decide +kernel

end Verif

import Verif.Spec.PasteTable
import Verif.Lemmas.TablePaste
import Verif.Lemmas.PasteState
/-
The cells of a pasted table.
-/
namespace Verif
open Store

/-- The cells made for the cells of a fragment, with the ids they get. -/
def pastedCells : Nat → Nat → Nat → List FragCell → List SCell
  | _, _, _, [] => []
  | F, B, C, c :: l => ⟨{ c.entity F with id := C }, F, [⟨B, c.chars, {}⟩]⟩ :: pastedCells (F + 1) (B + 1) (C + 1) l

/-- What pasting cells changes. -/
structure Sprouted (s s' : Store) (did tid : Nat) (cs : List SCell) : Prop where
  frames : ∀ c ∈ cs, s'.frames c.frame = some (freshFrame c)
  oldFrames : ∀ i, i ∉ cs.map SCell.frame → s'.frames i = s.frames i
  blocks : ∀ c ∈ cs, ∀ p ∈ c.paras, s'.blocks p.id = some { id := p.id }
  oldBlocks : ∀ i, i ∉ cellBlocks cs → s'.blocks i = s.blocks i
  cells : ∀ c ∈ cs, s'.tableCells c.cell.id = some c.cell
  oldCells : ∀ i, (i ∉ cs.map fun c => c.cell.id) → s'.tableCells i = s.tableCells i
  document : ∀ d, s.documents did = some d → s'.documents did = some { d with frames := d.frames ++ cs.map SCell.frame }
  oldDocs : ∀ i, i ≠ did → s'.documents i = s.documents i
  table : ∀ t, s.tables tid = some t → s'.tables tid = some { t with cells := t.cells ++ cs.map fun c => c.cell.id }
  oldTables : ∀ i, i ≠ tid → s'.tables i = s.tables i
  nextFrame : s'.next "frame" = s.next "frame" + cs.length
  nextBlock : s'.next "block" = s.next "block" + cs.length
  nextCell : s'.next "table_cell" = s.next "table_cell" + cs.length
  nextTable : s'.next "table" = s.next "table"
  text : s'.text = s.text
  runs : ∀ c ∈ cs, ∀ p ∈ c.paras, StyledOk ((s'.formatRuns p.id).getD []) p.chars
  oldRuns : ∀ i, i ∉ cellBlocks cs → s'.formatRuns i = s.formatRuns i
  images : ∀ c ∈ cs, ∀ p ∈ c.paras, (s'.blockImages p.id).getD [] = []
  oldImages : ∀ i, i ∉ cellBlocks cs → s'.blockImages i = s.blockImages i
  roots : s'.roots = s.roots
  lists : s'.lists = s.lists

theorem pastedCells_length (F B C : Nat) (l : List FragCell) : (pastedCells F B C l).length = l.length := by
  induction l generalizing F B C with
  | nil => rfl
  | cons x l ih => simp [pastedCells, ih]

theorem pastedCells_frames (F B C : Nat) (l : List FragCell) :
    (pastedCells F B C l).map SCell.frame = List.range' F l.length := by
  induction l generalizing F B C with
  | nil => rfl
  | cons x l ih => simp [pastedCells, ih, List.range'_succ]

theorem pastedCells_cells (F B C : Nat) (l : List FragCell) :
    ((pastedCells F B C l).map fun c => c.cell.id) = List.range' C l.length := by
  induction l generalizing F B C with
  | nil => rfl
  | cons x l ih => simp [pastedCells, ih, List.range'_succ]

theorem pastedCells_blocks (F B C : Nat) (l : List FragCell) :
    cellBlocks (pastedCells F B C l) = List.range' B l.length := by
  unfold cellBlocks
  induction l generalizing F B C with
  | nil => rfl
  | cons x l ih =>
    simp only [pastedCells, List.flatMap_cons, List.map_append, List.map_cons, List.map_nil, ih, List.length_cons,
      List.range'_succ, List.singleton_append]

theorem pastedCells_mem {F B C : Nat} {l : List FragCell} {x : SCell} (h : x ∈ pastedCells F B C l) :
    ∃ c ∈ l, ∃ i, x.paras = [⟨i, c.chars, {}⟩] ∧ B ≤ i ∧ i < B + l.length ∧ x.cell.cellFrame = some x.frame ∧
      x.cell.row = c.row ∧ x.cell.column = c.column := by
  induction l generalizing F B C with
  | nil => simp [pastedCells] at h
  | cons y l ih =>
    simp only [pastedCells, List.mem_cons] at h
    rcases h with rfl | h
    · exact ⟨y, by simp, B, rfl, by omega, by simp, rfl, rfl, rfl⟩
    · obtain ⟨c, h0, i, h1, h2, h3, h4⟩ := ih h
      exact ⟨c, List.mem_cons_of_mem _ h0, i, h1, by omega, by simp; omega, h4⟩

theorem pastedCells_like (F B C : Nat) (l : List FragCell) : ∀ (k : Nat) c y, l[k]? = some c →
    (pastedCells F B C l)[k]? = some y → CellLike c y := by
  induction l generalizing F B C with
  | nil => intro k c y h; simp at h
  | cons x l ih =>
    intro k c y h1 h2
    cases k with
    | zero =>
      simp only [pastedCells, List.getElem?_cons_zero, Option.some.injEq] at h1 h2
      subst h1; subst h2
      exact ⟨⟨rfl, rfl⟩, ⟨rfl, rfl⟩, rfl, _, rfl⟩
    | succ k =>
      simp only [pastedCells, List.getElem?_cons_succ] at h1 h2
      exact ih _ _ _ k c y h1 h2

theorem pastedCells_before {F B C : Nat} {l : List FragCell}
    (h : l.Pairwise fun a b => a.row < b.row ∨ (a.row = b.row ∧ a.column < b.column)) :
    (pastedCells F B C l).Pairwise SCell.before := by
  induction l generalizing F B C with
  | nil => exact .nil
  | cons x l ih =>
    rw [List.pairwise_cons] at h
    refine .cons ?_ (ih h.2)
    intro y hy
    obtain ⟨c, h0, i, _, _, _, _, h4, h5⟩ := pastedCells_mem hy
    have := h.1 c h0
    unfold SCell.before
    rw [h4, h5]
    show ((x.row : Int) < c.row) ∨ ((x.row : Int) = c.row ∧ (x.column : Int) < c.column)
    omega

/-- The text of the cells. -/
def cellTexts (cs : List SCell) : List (List (Nat × List Char)) := cs.map fun c => c.paras.map fun p => (p.id, p.text)

theorem fillCell_simple {c : FragCell} {g b : Nat} {pos : Int} {s : Store} (hc : c.Simple)
    (hclean : s.formatRuns b = none ∧ s.blockImages b = none) :
    ∃ next s', fillCell g b pos s c.blocks = some ([(b, c.chars.map Prod.fst)], next, s') ∧
      (∃ m n, s' = { s with formatRuns := m, blockImages := n }) ∧
      StyledOk ((s'.formatRuns b).getD []) c.chars ∧ (s'.blockImages b).getD [] = [] ∧
      (∀ i, i ≠ b → s'.formatRuns i = s.formatRuns i ∧ s'.blockImages i = s.blockImages i) ∧
      next = pos + c.chars.length + 1 := by
  obtain ⟨h1, h2⟩ := hc
  unfold FragCell.chars
  cases hb : c.blocks with
  | nil =>
    refine ⟨_, _, rfl, ⟨s.formatRuns, s.blockImages, rfl⟩, ?_, ?_, ?_, ?_⟩
    · rw [hclean.1]; exact styledOk_plain []
    · rw [hclean.2]; rfl
    · intro i _; exact ⟨rfl, rfl⟩
    · simp
  | cons fb l =>
    have : l = [] := by
      rw [hb] at h1; simp at h1; exact h1
    subst this
    have ht := h2 fb (by rw [hb]; simp)
    have hst := fragState_styled ht
    have hlen := state_len ht
    refine ⟨pos + fb.state.len + 1, s.writeState b (fragState fb).1 (fragState fb).2, ?_, ⟨_, _, rfl⟩, ?_, ?_, ?_, ?_⟩
    · simp [fillCell, addCellBlocks, ht.text]
    · have e : ((s.writeState b (fragState fb).1 (fragState fb).2).formatRuns b).getD [] = (fragState fb).1 := by
        simp only [Store.writeState]
        by_cases e : (fragState fb).1 = []
        · rw [if_pos e, e, IdMap.erase_get, if_pos rfl]; rfl
        · rw [if_neg e, IdMap.insert_get, if_pos rfl]; rfl
      rw [e]; exact hst.1
    · simp only [Store.writeState, hst.2, if_true, IdMap.erase_get]; rfl
    · intro i hi
      constructor
      · simp only [Store.writeState]
        split
        · rw [IdMap.erase_get, if_neg hi]
        · rw [IdMap.insert_get, if_neg hi]
      · simp only [Store.writeState, hst.2, if_true, IdMap.erase_get, if_neg hi]
    · rw [hlen]; rfl

theorem pasteCells_new {tid : Nat} (l : List FragCell) :
    ∀ {s : Store} {d : Document} {t : Table} {pos : Int}, (∀ c ∈ l, c.Simple) → s.documents d.id = some d →
      (∀ i ∈ d.frames, (s.frames i).isSome) →
      s.tables tid = some t → (∀ i ∈ t.cells, (s.tableCells i).isSome) →
      (∀ i, s.next "block" ≤ i → s.formatRuns i = none ∧ s.blockImages i = none) →
      ∃ firsts last s', pasteCells d.id tid l pos s = some
          (cellTexts (pastedCells (s.next "frame") (s.next "block") (s.next "table_cell") l), firsts, last, s') ∧
        firsts.map Block.id = cellBlocks (pastedCells (s.next "frame") (s.next "block") (s.next "table_cell") l) ∧
        (∀ x ∈ firsts, x = { id := x.id, documentPosition := x.documentPosition }) ∧
        last = pos + charsBefore (paras ((pastedCells (s.next "frame") (s.next "block") (s.next "table_cell") l).flatMap SCell.paras)) ∧
        (∀ X q Y, (pastedCells (s.next "frame") (s.next "block") (s.next "table_cell") l).flatMap SCell.paras = X ++ q :: Y →
          { id := q.id, documentPosition := pos + charsBefore (paras X) } ∈ firsts) ∧
        Sprouted s s' d.id tid (pastedCells (s.next "frame") (s.next "block") (s.next "table_cell") l) := by
  induction l with
  | nil =>
    intro s d t pos _ hd _ ht _ _
    refine ⟨[], pos, s, rfl, rfl, by simp, by simp [pastedCells, paras, charsBefore], by intro X q Y e; simp [pastedCells] at e, ?_⟩
    constructor <;> try (first | rfl | (intros; rfl))
    · intro c hc; simp [pastedCells] at hc
    · intro c hc; simp [pastedCells] at hc
    · intro c hc; simp [pastedCells] at hc
    · intro x hx; simp [pastedCells, hx]
    · intro x hx; simp [pastedCells, hx]
    · intro c hc; simp [pastedCells] at hc
    · intro c hc; simp [pastedCells] at hc
  | cons c l ih =>
    intro s d t pos hsim hd hfr ht hcl hclean
    obtain ⟨s1, e1, g1, g2, g3, n1, n2, n3, n4, k1, k2, k3, k4, k5, k6, k7⟩ := createCellFrame_new hd hfr
    have hd1 := g3 d.id
    rw [if_pos rfl] at hd1
    obtain ⟨next, sf, f1, ⟨rm, im, f2⟩, f3, f4, f5, f6⟩ := fillCell_simple (g := s.next "frame") (b := s.next "block") (pos := pos) (s := s1)
      (hsim c (by simp)) (by rw [k2, k3]; exact hclean _ (Nat.le_refl _))
    have w1 : sf.tables = s1.tables := by rw [f2]
    have w2 : sf.tableCells = s1.tableCells := by rw [f2]
    have w3 : ∀ k, sf.next k = s1.next k := by rw [f2]; intro k; rfl
    have w4 : sf.frames = s1.frames := by rw [f2]
    have w5 : sf.blocks = s1.blocks := by rw [f2]
    have w6 : sf.documents = s1.documents := by rw [f2]
    have w7 : sf.text = s1.text ∧ sf.roots = s1.roots ∧ sf.lists = s1.lists := by rw [f2]; exact ⟨rfl, rfl, rfl⟩
    have ht1 : sf.tables tid = some t := by rw [w1, k6]; exact ht
    have hcl1 : ∀ i ∈ t.cells, (sf.tableCells i).isSome := by rw [w2, k7]; exact hcl
    simp only [Store.pasteCells]
    rw [e1, Option.bind_some]
    simp only
    rw [f1, Option.bind_some]
    simp only
    rw [createCell_new ht1 hcl1, Option.bind_some]
    generalize hs2 : ({ sf with
      counters := (sf.nextId "table_cell").2.counters
      tableCells := sf.tableCells.insert (sf.next "table_cell")
        { c.entity (s.next "frame") with id := sf.next "table_cell" }
      tables := sf.tables.insert tid { t with cells := t.cells ++ [sf.next "table_cell"] } } : Store) = s2
    have n3' : sf.next "table_cell" = s.next "table_cell" := by rw [w3, n3]
    have m1 : s2.frames = s1.frames := by rw [← hs2, ← w4]
    have m2 : s2.blocks = s1.blocks := by rw [← hs2, ← w5]
    have m3 : s2.documents = s1.documents := by rw [← hs2, ← w6]
    have m4 : ∀ i, s2.tableCells i = if i = s.next "table_cell" then
        some { c.entity (s.next "frame") with id := s.next "table_cell" } else s.tableCells i := by
      intro i
      rw [← hs2, ← n3']
      simp only [IdMap.insert_get, w2, k7]
    have m5 : ∀ i, s2.tables i = if i = tid then some { t with cells := t.cells ++ [s.next "table_cell"] }
        else s.tables i := by
      intro i
      rw [← hs2, ← n3']
      simp only [IdMap.insert_get, w1, k6]
    have q1 : s2.next "frame" = s.next "frame" + 1 := by
      rw [← hs2, ← n1, ← w3]; exact next_other (a := "table_cell") (b := "frame") (by decide) sf
    have q2 : s2.next "block" = s.next "block" + 1 := by
      rw [← hs2, ← n2, ← w3]; exact next_other (a := "table_cell") (b := "block") (by decide) sf
    have q3 : s2.next "table_cell" = s.next "table_cell" + 1 := by
      rw [← hs2, ← n3']; exact next_self "table_cell" sf
    have q4 : s2.next "table" = s.next "table" := by
      rw [← hs2, ← n4, ← w3]; exact next_other (a := "table_cell") (b := "table") (by decide) sf
    have m6 : ∀ i, i ≠ s.next "block" → s2.formatRuns i = s.formatRuns i ∧ s2.blockImages i = s.blockImages i := by
      intro i hi
      have := f5 i hi
      rw [k2, k3] at this
      rw [← hs2]; exact this
    have m7 : StyledOk ((s2.formatRuns (s.next "block")).getD []) c.chars ∧ (s2.blockImages (s.next "block")).getD [] = [] := by
      rw [← hs2]; exact ⟨f3, f4⟩
    have hd2 : s2.documents ({ d with frames := d.frames ++ [s.next "frame"] } : Document).id =
        some { d with frames := d.frames ++ [s.next "frame"] } := by rw [m3]; exact hd1
    obtain ⟨firsts, last, s', e2, hfi, hfx, hfl, hfp, G⟩ := ih (s := s2) (pos := next) (fun x hx => hsim x (by simp [hx])) hd2 (by
        intro i hi
        rw [m1, g1]
        split
        · rfl
        · rename_i hne
          rcases List.mem_append.mp hi with hi | hi
          · exact hfr i hi
          · simp only [List.mem_singleton] at hi; exact absurd hi hne)
      (t := { t with cells := t.cells ++ [s.next "table_cell"] }) (by rw [m5, if_pos rfl]) (by
        intro i hi
        rw [m4]
        split
        · rfl
        · rename_i hne
          rcases List.mem_append.mp hi with hi | hi
          · exact hcl i hi
          · simp only [List.mem_singleton] at hi; exact absurd hi hne) (by
        intro i hi
        rw [(m6 i (by omega)).1, (m6 i (by omega)).2]
        exact hclean i (by omega))
    have e2' : pasteCells d.id tid l next s2 = _ := e2
    rw [e2', Option.map_some]
    rw [q1, q2, q3] at G hfi hfl hfp
    refine ⟨_, _, s', by simp only [q1, q2, q3, pastedCells, cellTexts, List.map_cons, List.map_nil, SPara.text]; rfl, ?_, ?_, ?_, ?_, ?_⟩
    · rw [List.map_cons, hfi]; simp [cellBlocks, pastedCells]
    · intro x hx
      rcases List.mem_cons.mp hx with rfl | hx
      · rfl
      · exact hfx x hx
    · rw [hfl, f6, pastedCells, List.flatMap_cons, List.singleton_append, charsBefore_paras_cons]
      push_cast; omega
    · intro X q Y e
      rw [pastedCells, List.flatMap_cons, List.singleton_append] at e
      cases X with
      | nil =>
        simp only [List.nil_append, List.cons.injEq] at e
        rw [← e.1]
        simp [paras, charsBefore]
      | cons z X =>
        simp only [List.cons_append, List.cons.injEq] at e
        have := hfp X q Y e.2
        refine List.mem_cons_of_mem _ ?_
        rw [← e.1, charsBefore_paras_cons]
        rw [f6] at this
        have e3 : pos + ((c.chars.length + 1 + charsBefore (paras X) : Nat) : Int) = pos + c.chars.length + 1 + charsBefore (paras X) := by
          push_cast; omega
        rw [e3]
        exact this
    have hF : s.next "frame" ∉ (pastedCells (s.next "frame" + 1) (s.next "block" + 1) (s.next "table_cell" + 1) l).map SCell.frame := by
      rw [pastedCells_frames]; simp [List.mem_range']; omega
    have hB : s.next "block" ∉ cellBlocks (pastedCells (s.next "frame" + 1) (s.next "block" + 1) (s.next "table_cell" + 1) l) := by
      rw [pastedCells_blocks]; simp [List.mem_range']; omega
    have hC : s.next "table_cell" ∉ (pastedCells (s.next "frame" + 1) (s.next "block" + 1) (s.next "table_cell" + 1) l).map fun c => c.cell.id := by
      rw [pastedCells_cells]; simp [List.mem_range']; omega
    have hcbc : ∀ i, i ∉ cellBlocks (pastedCells (s.next "frame") (s.next "block") (s.next "table_cell") (c :: l)) →
        i ≠ s.next "block" ∧ i ∉ cellBlocks (pastedCells (s.next "frame" + 1) (s.next "block" + 1) (s.next "table_cell" + 1) l) := by
      intro i hi
      simpa only [cellBlocks, pastedCells, List.flatMap_cons, List.map_append, List.mem_append, not_or, List.map_cons,
        List.map_nil, List.mem_singleton] using hi
    constructor
    · intro x hx
      simp only [pastedCells, List.mem_cons] at hx
      rcases hx with rfl | hx
      · show s'.frames (s.next "frame") = _
        rw [G.oldFrames _ hF, m1, g1, if_pos rfl]; rfl
      · exact G.frames x hx
    · intro i hi
      simp only [pastedCells, List.map_cons, List.mem_cons, not_or] at hi
      rw [G.oldFrames i hi.2, m1, g1, if_neg hi.1]
    · intro x hx p hp
      simp only [pastedCells, List.mem_cons] at hx
      rcases hx with rfl | hx
      · simp only [List.mem_singleton] at hp
        subst hp
        show s'.blocks (s.next "block") = _
        rw [G.oldBlocks _ hB, m2, g2, if_pos rfl]
      · exact G.blocks x hx p hp
    · intro i hi
      have hi := hcbc i hi
      rw [G.oldBlocks i hi.2, m2, g2, if_neg hi.1]
    · intro x hx
      simp only [pastedCells, List.mem_cons] at hx
      rcases hx with rfl | hx
      · show s'.tableCells (s.next "table_cell") = _
        rw [G.oldCells _ hC, m4, if_pos rfl]
      · exact G.cells x hx
    · intro i hi
      simp only [pastedCells, List.map_cons, List.mem_cons, not_or] at hi
      rw [G.oldCells i hi.2, m4, if_neg (show ¬ i = s.next "table_cell" from hi.1)]
    · intro x hx
      rw [hd] at hx; cases hx
      have := G.document _ hd2
      rw [show s'.documents d.id = _ from this]
      simp [pastedCells]
    · intro i hi
      rw [G.oldDocs i hi, m3, g3, if_neg hi]
    · intro x hx
      rw [ht] at hx; cases hx
      rw [G.table _ (by rw [m5, if_pos rfl])]
      simp [pastedCells]
    · intro i hi
      rw [G.oldTables i hi, m5, if_neg hi]
    · rw [G.nextFrame, q1, pastedCells, List.length_cons]; omega
    · rw [G.nextBlock, q2, pastedCells, List.length_cons]; omega
    · rw [G.nextCell, q3, pastedCells, List.length_cons]; omega
    · rw [G.nextTable, q4]
    · rw [G.text, ← hs2]; exact w7.1.trans k1
    · intro x hx p hp
      simp only [pastedCells, List.mem_cons] at hx
      rcases hx with rfl | hx
      · simp only [List.mem_singleton] at hp
        subst hp
        show StyledOk ((s'.formatRuns (s.next "block")).getD []) _
        rw [G.oldRuns _ hB]; exact m7.1
      · exact G.runs x hx p hp
    · intro i hi
      have hi := hcbc i hi
      rw [G.oldRuns i hi.2, (m6 i hi.1).1]
    · intro x hx p hp
      simp only [pastedCells, List.mem_cons] at hx
      rcases hx with rfl | hx
      · simp only [List.mem_singleton] at hp
        subst hp
        show (s'.blockImages (s.next "block")).getD [] = _
        rw [G.oldImages _ hB]; exact m7.2
      · exact G.images x hx p hp
    · intro i hi
      have hi := hcbc i hi
      rw [G.oldImages i hi.2, (m6 i hi.1).2]
    · rw [G.roots, ← hs2]; exact w7.2.1.trans k4
    · rw [G.lists, ← hs2]; exact w7.2.2.trans k5

end Verif

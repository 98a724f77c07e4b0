import Verif.Lemmas.TableCopy
import Verif.Lemmas.TableCells
import Verif.Spec.CopyMixed
/- Copying across table cells. -/
namespace Verif
open Store

variable {s : Store} {d : Document} {f : Nat} {items : List SItem} {p : SPara} {t : STable} {c : SCell} {ps : List SPara}

/-! ### The table of a block -/

theorem Tabled.cellHas (h : Tabled s d f items) (ht : t ∈ tablesOf items) {i : Nat} :
    ((s.getCells (s.tableCellIds t.table.id)).any fun c =>
      match c.cellFrame with
      | some g => (s.frameBlocks g).contains i
      | none => false) = true ↔ ∃ c ∈ t.cells, ∃ q ∈ c.paras, q.id = i := by
  have hs := h.table t ht
  have e : s.tableCellIds t.table.id = t.table.cells := by unfold Store.tableCellIds; rw [hs.table]; rfl
  rw [List.any_eq_true, e]
  constructor
  · rintro ⟨x, hx, hi⟩
    obtain ⟨j, hj, hx⟩ := List.mem_filterMap.mp hx
    obtain ⟨c, hc, rfl⟩ := List.mem_map.mp (hs.cells.mem_iff.mp hj)
    obtain ⟨c1, c2, _⟩ := hs.cell c hc
    rw [c1] at hx
    cases hx
    rw [c2] at hi
    have hi : i ∈ s.frameBlocks c.frame := by simpa using hi
    obtain ⟨q, hq, rfl⟩ := List.mem_map.mp ((h.arranged.cellFrameBlocks ht hc).mem_iff.mp hi)
    exact ⟨c, hc, q, hq, rfl⟩
  · rintro ⟨c, hc, q, hq, rfl⟩
    obtain ⟨c1, c2, _⟩ := hs.cell c hc
    refine ⟨c.cell, List.mem_filterMap.mpr ⟨c.cell.id, hs.cells.mem_iff.mpr (List.mem_map_of_mem hc), c1⟩, ?_⟩
    rw [c2]
    have := (h.arranged.cellFrameBlocks ht hc).mem_iff.mpr (List.mem_map_of_mem hq)
    simpa using this

theorem Tabled.tableOf_cell (h : Tabled s d f items) (ht : t ∈ tablesOf items) (hc : c ∈ t.cells) (hp : p ∈ c.paras) :
    s.tableOfBlock d.id p.id = some t.table.id := by
  have hd : s.docTables d.id = d.tables := by simp [Store.docTables, h.document]
  unfold Store.tableOfBlock
  rw [hd]
  cases e : d.tables.reverse.find? fun t => (s.getCells (s.tableCellIds t)).any fun c =>
      match c.cellFrame with
      | some g => (s.frameBlocks g).contains p.id
      | none => false with
  | none =>
    rw [List.find?_eq_none] at e
    exact absurd ((h.cellHas ht).mpr ⟨c, hc, p, hp, rfl⟩)
      (e t.table.id (List.mem_reverse.mpr (h.tables.mem_iff.mpr (List.mem_map_of_mem ht))))
  | some g =>
    have h1 := List.find?_some e
    have h2 := List.mem_reverse.mp (List.mem_of_find?_eq_some e)
    obtain ⟨u, hu, rfl⟩ := List.mem_map.mp (h.tables.mem_iff.mp h2)
    obtain ⟨x, hx, q, hq, e⟩ := (h.cellHas hu).mp h1
    have hb : p.id ∈ s.frameBlocks c.frame := (h.arranged.cellFrameBlocks ht hc).mem_iff.mpr (List.mem_map_of_mem hp)
    have hb' : p.id ∈ s.frameBlocks x.frame := (h.arranged.cellFrameBlocks hu hx).mem_iff.mpr (e ▸ List.mem_map_of_mem hq)
    rw [(h.cell_unique ht hc hu hx (h.arranged.frame_unique hb' hb)).1]

theorem Tabled.tableOf_top (h : Tabled s d f items) (hp : p ∈ topParas items) : s.tableOfBlock d.id p.id = none := by
  obtain ⟨L, hL, _⟩ := h.content
  have hd : s.docTables d.id = d.tables := by simp [Store.docTables, h.document]
  unfold Store.tableOfBlock
  rw [hd, List.find?_eq_none]
  intro i hi hm
  obtain ⟨u, hu, rfl⟩ := List.mem_map.mp (h.tables.mem_iff.mp (List.mem_reverse.mp hi))
  obtain ⟨x, hx, q, hq, e⟩ := (h.cellHas hu).mp hm
  have := inCell_top hL.ids_nodup hp
  have h2 : inCellOf items p = true := by
    unfold inCellOf
    rw [List.any_eq_true]
    exact ⟨q, List.mem_flatMap.mpr ⟨x, mem_cellsOf.mpr ⟨u, hu, hx⟩, hq⟩, by simp [e]⟩
  rw [this] at h2; cases h2

/-! ### A copied table -/

theorem Legible.wholeBlock (h : Legible s ps) (hp : p ∈ ps) (n : Nat) : ∃ fb, s.wholeBlock (p.entity n) = some fb ∧ WholeCopy p fb := by
  obtain ⟨fb, h1, h2⟩ := (h.extractBlock hp n (n + p.chars.length + 1) n 0 (by omega)).2 (by omega)
  refine ⟨{ fb with list := none }, ?_, ?_⟩
  · unfold Store.wholeBlock
    rw [show (p.entity (n : Int)).id = p.id from rfl, h.charLength hp, Option.bind_some]
    have e : ((p.entity (n : Int)).documentPosition + ((p.text.length : Nat) : Int) + 1) = ((n + p.chars.length + 1 : Nat) : Int) := by
      show (n : Int) + _ + 1 = _
      simp only [SPara.text_length]; push_cast; rfl
    rw [e]
    show (Store.extractBlock s (n : Int) _ 0 _).bind _ = _
    rw [h1]; rfl
  · have e1 : (p.chars.take (n + p.chars.length + 1 - n)).drop (n - n) = p.chars := by
      rw [Nat.sub_self, List.drop_zero, List.take_of_length_le (by omega)]
    have e2 : (n ≤ n ∧ (n + p.chars.length < n + p.chars.length + 1 ∨ (p.id = 0 ∧ n + p.chars.length = n + p.chars.length + 1))) := ⟨by omega, .inl (by omega)⟩
    rw [e1, if_pos e2] at h2
    exact ⟨h2.text, h2.chars, h2.format, rfl⟩

theorem inTurn_texts {l : List SPara} {m : List FragBlock} (h : InTurn WholeCopy l m) : m.map FragBlock.text = l.map SPara.text := by
  induction l generalizing m with
  | nil => cases m with
    | nil => rfl
    | cons _ _ => exact h.elim
  | cons p l ih => cases m with
    | nil => exact h.elim
    | cons fb m => rw [List.map_cons, List.map_cons, h.1.text, ih h.2]

theorem inTurn_lines {l : List SCell} {m : List FragCell} (h : InTurn CellCopy l m) :
    (m.flatMap fun c => c.blocks.map FragBlock.text) = l.flatMap fun c => c.paras.map SPara.text := by
  induction l generalizing m with
  | nil => cases m with
    | nil => rfl
    | cons _ _ => exact h.elim
  | cons p l ih => cases m with
    | nil => exact h.elim
    | cons fb m => rw [List.flatMap_cons, List.flatMap_cons, inTurn_texts h.1.blocks, ih h.2]

theorem Tabled.copyTable (h : Tabled s d f items) (ht : t ∈ tablesOf items) (k : Nat)
    (hnat : ∀ q ∈ flowParas items, ∃ n : Nat, s.storedPos q = n) :
    ∃ ft, s.copyTable t.table.id k = some ft ∧ TableCopy (k, t) ft := by
  obtain ⟨L, hL, _⟩ := h.content
  have hs := h.table t ht
  have ho := (h.seated (List.ne_nil_of_mem ht)).ascends
  obtain ⟨cs, h1, h2⟩ := InTurn.mapOpt (R := CellCopy) (u := s.copyCell) (v := SCell.cell) (l := t.cells) (by
    intro c hc
    obtain ⟨c1, c2, _⟩ := hs.cell c hc
    obtain ⟨bs, b1, b2⟩ := InTurn.mapOpt (R := WholeCopy) (u := s.wholeBlock) (v := fun p : SPara => p.entity (s.storedPos p)) (l := c.paras) (by
      intro p hp
      have hpf := (cellParas_sublist ht hc).subset hp
      obtain ⟨n, hn⟩ := hnat p hpf
      rw [hn]
      exact hL.legible.wholeBlock hpf n)
    refine ⟨FragCell.mk c.cell.row.toNat c.cell.column.toNat (max c.cell.rowSpan 1).toNat (max c.cell.columnSpan 1).toNat bs c.cell, ?_,
      ⟨rfl, rfl, rfl, rfl, rfl, b2⟩⟩
    unfold Store.copyCell
    rw [c2]
    dsimp only
    rw [h.arranged.sortedBlocks ht hc (ho.sublist (cellParas_sublist ht hc)), b1]
    rfl)
  refine ⟨FragTable.mk t.table.rows.toNat t.table.columns.toNat cs k t.table, ?_, ⟨rfl, rfl, rfl, rfl, h2⟩⟩
  unfold Store.copyTable
  rw [hs.table, Option.bind_some, hs.sorted, h1]
  rfl

/-! ### The loop -/

theorem mixedLoop_append (did : Nat) (start stop : Int) (last : Nat) (xs ys : List Block) (st : MixedCopy) :
    s.mixedLoop did start stop last (xs ++ ys) st = (s.mixedLoop did start stop last xs st).bind (s.mixedLoop did start stop last ys) := by
  induction xs generalizing st with
  | nil => rfl
  | cons x xs ih =>
    rw [List.cons_append, mixedLoop, mixedLoop]
    cases s.mixedStep did start stop last st x with
    | none => rfl
    | some st' => exact ih st'

theorem mixedLoop_idle {did : Nat} {start stop : Int} {last : Nat} {xs : List Block} {st : MixedCopy}
    (h : ∀ x ∈ xs, s.mixedStep did start stop last st x = some st) : s.mixedLoop did start stop last xs st = some st := by
  induction xs with
  | nil => rfl
  | cons x xs ih =>
    rw [mixedLoop, h x (by simp), Option.bind_some]
    exact ih fun y hy => h y (by simp [hy])

theorem Legible.step_far (h : Legible s ps) (hp : p ∈ ps) {lo hi n : Nat} (hc : n + p.chars.length < lo ∨ hi ≤ n) (did last : Nat) (st : MixedCopy) :
    s.mixedStep did lo hi last st (p.entity n) = some st := by
  unfold Store.mixedStep
  rw [show (p.entity (n : Int)).id = p.id from rfl, h.charLength hp, Option.bind_some, if_pos]
  show (n : Int) + _ < _ ∨ (n : Int) ≥ _
  simp only [SPara.text_length]; omega

theorem Legible.step_near (h : Legible s ps) (hp : p ∈ ps) {lo hi n : Nat} (hc : ¬ (n + p.chars.length < lo ∨ hi ≤ n)) (did last : Nat) (st : MixedCopy) :
    s.mixedStep did lo hi last st (p.entity n) = 
    match s.tableOfBlock did p.id with
    | some tid =>
      if st.done.contains tid then some st
      else (s.copyTable tid st.blocks.length).map fun t =>
        { st with
          tables := st.tables ++ [t]
          plain := st.plain ++ t.cells.flatMap fun c => c.blocks.map FragBlock.text
          done := st.done ++ [tid] }
    | none =>
      (s.extractBlock lo hi last (p.entity n)).map fun
        | some fb => { st with blocks := st.blocks ++ [fb], plain := st.plain ++ [fb.text] }
        | none => st := by
  unfold Store.mixedStep
  rw [show (p.entity (n : Int)).id = p.id from rfl, h.charLength hp, Option.bind_some, if_neg]
  · rfl
  · show ¬ ((n : Int) + _ < _ ∨ (n : Int) ≥ _)
    simp only [SPara.text_length]; omega

/-- The paragraphs of a table that is done are passed over. -/
theorem Tabled.step_done (h : Tabled s d f items) (ht : t ∈ tablesOf items) (hp : p ∈ t.cells.flatMap SCell.paras) (lo hi n last : Nat) (st : MixedCopy)
    (hd : t.table.id ∈ st.done) : s.mixedStep d.id lo hi last st (p.entity n) = some st := by
  obtain ⟨L, hL, _⟩ := h.content
  obtain ⟨c, hc, hpc⟩ := List.mem_flatMap.mp hp
  have hpf := (cellParas_sublist ht hc).subset hpc
  by_cases hf : n + p.chars.length < lo ∨ hi ≤ n
  · exact hL.legible.step_far hpf hf _ _ _
  · rw [hL.legible.step_near hpf hf, h.tableOf_cell ht hc hpc]
    dsimp only
    rw [if_pos (by simpa using hd)]

theorem Tabled.loop_table (h : Tabled s d f items) (ht : t ∈ tablesOf items) (q : SPara → Bool) (lo hi last : Nat) (st : MixedCopy)
    (hd : t.table.id ∉ st.done) (hnat : ∀ q ∈ flowParas items, ∃ n : Nat, s.storedPos q = n) :
    ∀ (qs : List SPara) (n : Nat), (∀ x ∈ qs, x ∈ t.cells.flatMap SCell.paras) → (qs.map fun p => p.entity (s.storedPos p)) = placed n qs →
    (touched lo hi n qs = [] → s.mixedLoop d.id lo hi last ((doubled q qs).map fun p => p.entity (s.storedPos p)) st = some st) ∧
    (touched lo hi n qs ≠ [] → ∃ ft, TableCopy (st.blocks.length, t) ft ∧
      s.mixedLoop d.id lo hi last ((doubled q qs).map fun p => p.entity (s.storedPos p)) st = some
        { st with
          tables := st.tables ++ [ft]
          plain := st.plain ++ t.cells.flatMap fun c => c.paras.map SPara.text
          done := st.done ++ [t.table.id] }) := by
  obtain ⟨L, hL, _⟩ := h.content
  have hin : ∀ x ∈ t.cells.flatMap SCell.paras, x ∈ flowParas items := fun x hx => by
    obtain ⟨c, hc, hpc⟩ := List.mem_flatMap.mp hx
    exact (cellParas_sublist ht hc).subset hpc
  have hidle : ∀ (xs : List SPara) (st : MixedCopy), (∀ x ∈ xs, x ∈ t.cells.flatMap SCell.paras) → t.table.id ∈ st.done →
      s.mixedLoop d.id lo hi last (xs.map fun p => p.entity (s.storedPos p)) st = some st := by
    intro xs st hxs hd
    apply mixedLoop_idle
    intro b hb
    obtain ⟨x, hx, rfl⟩ := List.mem_map.mp hb
    obtain ⟨n, hn⟩ := hnat x (hin x (hxs x hx))
    rw [hn]
    exact h.step_done ht (hxs x hx) lo hi n last st hd
  intro qs
  induction qs with
  | nil => intro n _ _; exact ⟨fun _ => rfl, fun h => absurd rfl h⟩
  | cons x qs ih =>
    intro n hq hst
    have e1 : (n : Int) + ((x.text.length : Nat) + 1) = ((n + x.chars.length + 1 : Nat) : Int) := by
      simp only [SPara.text_length]; push_cast; omega
    rw [List.map_cons, placed, e1, List.cons.injEq] at hst
    have ih := ih (n + x.chars.length + 1) (fun y hy => hq y (by simp [hy])) hst.2
    have hxf := hin x (hq x (by simp))
    by_cases hc : n + x.chars.length < lo ∨ hi ≤ n
    · rw [touched, if_pos hc]
      have hfar := hL.legible.step_far hxf hc d.id last st
      have : s.mixedLoop d.id lo hi last ((doubled q (x :: qs)).map fun p => p.entity (s.storedPos p)) st =
          s.mixedLoop d.id lo hi last ((doubled q qs).map fun p => p.entity (s.storedPos p)) st := by
        rw [doubled_cons, List.map_append, mixedLoop_append, mixedLoop_idle, Option.bind_some]
        intro b hb
        obtain ⟨y, hy, rfl⟩ := List.mem_map.mp hb
        have : y = x := by split at hy <;> simpa using hy
        subst this
        rw [hst.1]; exact hfar
      rw [this]
      exact ih
    · rw [touched, if_neg hc]
      refine ⟨fun h => absurd h (by simp), fun _ => ?_⟩
      obtain ⟨ft, f1, f2⟩ := h.copyTable ht st.blocks.length hnat
      obtain ⟨c, hcc, hxc⟩ := List.mem_flatMap.mp (hq x (by simp))
      have hnear := hL.legible.step_near hxf hc d.id last st
      rw [h.tableOf_cell ht hcc hxc] at hnear
      dsimp only at hnear
      rw [if_neg (by simpa using hd), f1, Option.map_some, inTurn_lines f2.cells] at hnear
      refine ⟨ft, f2, ?_⟩
      obtain ⟨rest, hr, hr2⟩ : ∃ rest, doubled q (x :: qs) = x :: rest ∧ ∀ y ∈ rest, y ∈ x :: qs := by
        rw [doubled_cons]
        split
        · exact ⟨x :: doubled q qs, rfl, fun y hy => by
            rcases List.mem_cons.mp hy with rfl | hy
            · simp
            · exact List.mem_cons_of_mem _ (mem_doubled.mp hy)⟩
        · exact ⟨doubled q qs, rfl, fun y hy => List.mem_cons_of_mem _ (mem_doubled.mp hy)⟩
      rw [hr, List.map_cons, mixedLoop, hst.1, hnear, Option.bind_some]
      exact hidle rest _ (fun y hy => hq y (hr2 y hy)) (by simp)

theorem doubled_append (q : SPara → Bool) (A B : List SPara) : doubled q (A ++ B) = doubled q A ++ doubled q B := by
  simp [doubled]

theorem Tabled.loop_items (h : Tabled s d f items) (lo hi last : Nat) (hlt : lo < hi)
    (hnat : ∀ q ∈ flowParas items, ∃ n : Nat, s.storedPos q = n) :
    ∀ (its : List SItem) (n : Nat) (st : MixedCopy), (∀ x ∈ its, x ∈ items) →
    ((tablesOf its).map fun t => t.table.id).Nodup → (∀ t ∈ tablesOf its, t.table.id ∉ st.done) →
    ((flowParas its).map fun p => p.entity (s.storedPos p)) = placed n (flowParas its) →
    (∀ A x B, flowParas its = A ++ x :: B → (x.id = last ↔ B = [])) →
    ∃ fbs fts D, s.mixedLoop d.id lo hi last ((doubled (inCellOf items) (flowParas its)).map fun p => p.entity (s.storedPos p)) st = some
        { blocks := st.blocks ++ fbs, tables := st.tables ++ fts, plain := st.plain ++ (parts lo hi n its).flatMap SPart.lines, done := D } ∧
      CopiesOf s fbs (textParts (parts lo hi n its)) ∧ InTurn TableCopy (tableParts st.blocks.length (parts lo hi n its)) fts := by
  obtain ⟨L, hL, _⟩ := h.content
  intro its
  induction its with
  | nil =>
    intro n st _ _ _ _ _
    refine ⟨[], [], st.done, ?_, trivial, trivial⟩
    simp [flowParas, doubled, mixedLoop, parts]
  | cons it its ih =>
    intro n st hin hnd hdone hst hlast
    cases it with
    | para p =>
      rw [flowParas_para] at hst hlast
      have hpt : p ∈ topParas items := mem_topParas.mpr (hin _ (by simp))
      have hpf : p ∈ flowParas items := (flow_perm items).mem_iff.mpr (List.mem_append_left _ hpt)
      have e1 : (n : Int) + ((p.text.length : Nat) + 1) = ((n + p.chars.length + 1 : Nat) : Int) := by
        simp only [SPara.text_length]; push_cast; omega
      rw [List.map_cons, placed, e1, List.cons.injEq] at hst
      have hq := inCell_top hL.ids_nodup hpt
      have hl := hlast [] p (flowParas its) rfl
      rw [flowParas_para, doubled_cons, if_neg (by rw [hq]; simp), List.singleton_append, List.map_cons, mixedLoop, hst.1]
      have ih := fun st hd => ih (n + p.chars.length + 1) st (fun x hx => hin x (by simp [hx])) hnd hd hst.2
        (fun A y B e => hlast (p :: A) y B (by rw [e]; rfl))
      by_cases hc : n + p.chars.length < lo ∨ hi ≤ n
      · rw [hL.legible.step_far hpf hc, Option.bind_some, parts, if_pos hc]
        exact ih st hdone
      · obtain ⟨fb, b1, b2⟩ := (hL.legible.extractBlock hpf lo hi n last hlt).2 hc
        simp only [hl] at b2
        rw [hL.legible.step_near hpf hc, h.tableOf_top hpt, parts, if_neg hc]
        dsimp only
        rw [b1, Option.map_some, Option.bind_some]
        obtain ⟨fbs, fts, D, r1, r2, r3⟩ := ih { st with blocks := st.blocks ++ [fb], plain := st.plain ++ [fb.text] } hdone
        refine ⟨fb :: fbs, fts, D, ?_, ⟨b2, r2⟩, ?_⟩
        · rw [r1]
          simp [SPart.lines, b2.text]
        · rw [List.singleton_append, tableParts]
          simpa using r3
    | table t =>
      have ht : t ∈ tablesOf items := mem_tablesOf.mpr (hin _ (by simp))
      have hnd' := List.nodup_cons.mp (show (t.table.id :: (tablesOf its).map fun t => t.table.id).Nodup from hnd)
      rw [flowParas_table] at hst hlast
      rw [List.map_append, placed_append] at hst
      have hst := List.append_inj hst (by simp [placed_length])
      have e1 : (n : Int) + (charsBefore (paras (t.cells.flatMap SCell.paras)) : Nat) =
          ((n + ((t.cells.flatMap SCell.paras).map fun q => q.chars.length + 1).sum : Nat) : Int) := by
        rw [charsBefore_sum]; push_cast; rfl
      rw [e1] at hst
      have htab := h.loop_table ht (inCellOf items) lo hi last st (hdone t (by simp [tablesOf])) hnat (t.cells.flatMap SCell.paras) n
        (fun x hx => hx) hst.1
      have ih := fun st hd => ih (n + ((t.cells.flatMap SCell.paras).map fun q => q.chars.length + 1).sum) st (fun x hx => hin x (by simp [hx]))
        hnd'.2 hd hst.2 (fun A y B e => hlast (t.cells.flatMap SCell.paras ++ A) y B (by rw [e]; simp))
      rw [flowParas_table, doubled_append, List.map_append, mixedLoop_append, parts]
      by_cases hc : touched lo hi n (t.cells.flatMap SCell.paras) = []
      · rw [htab.1 hc, Option.bind_some, if_pos hc]
        exact ih st fun u hu => hdone u (by simp [tablesOf] at hu ⊢; exact .inr hu)
      · obtain ⟨ft, f1, f2⟩ := htab.2 hc
        rw [f2, Option.bind_some, if_neg hc]
        obtain ⟨fbs, fts, D, r1, r2, r3⟩ := ih { st with
            tables := st.tables ++ [ft]
            plain := st.plain ++ t.cells.flatMap fun c => c.paras.map SPara.text
            done := st.done ++ [t.table.id] } (by
          intro u hu hm
          rcases List.mem_append.mp hm with hm | hm
          · exact hdone u (by simp [tablesOf] at hu ⊢; exact .inr hu) hm
          · rw [List.mem_singleton] at hm
            exact hnd'.1 (hm ▸ List.mem_map_of_mem hu))
        refine ⟨fbs, ft :: fts, D, ?_, r2, f1, r3⟩
        rw [r1]
        simp [SPart.lines]

end Verif

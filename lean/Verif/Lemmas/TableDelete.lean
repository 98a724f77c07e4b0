import Verif.Lemmas.TableType
import Verif.Lemmas.TableEdit
import Verif.Lemmas.TableEditSeat
import Verif.Lemmas.TableEditDrop
import Verif.Lemmas.EntRemove
import Verif.Model.DeleteCells
/- `delete_text` on documents in which no paragraph follows a table. -/
namespace Verif

variable {s s' : Store} {d : Document} {f : Nat} {items : List SItem} {P : List SPara} {T : List STable}

theorem topParas_trailing : topParas (P.map .para ++ T.map .table) = P := by
  unfold topParas
  rw [List.flatMap_append, List.flatMap_map, List.flatMap_map]
  simp

theorem tablesOf_trailing : tablesOf (P.map .para ++ T.map .table) = T := by
  unfold tablesOf
  rw [List.flatMap_append, List.flatMap_map, List.flatMap_map]
  simp

theorem flowParas_trailing : flowParas (P.map .para ++ T.map .table) = P ++ T.flatMap fun t => t.cells.flatMap SCell.paras := by
  unfold flowParas
  rw [List.flatMap_append, List.flatMap_map, List.flatMap_map]
  simp [SItem.paras]

/-- The refresh of positions finds nothing to change. -/
theorem Tabled.refresh (h : Tabled s d f (P.map .para ++ T.map .table)) :
    Store.refreshPositions s.text ((P.map SItem.para ++ T.map SItem.table).map SItem.entry) 0 (placed 0 (flowParas (P.map .para ++ T.map .table))) =
      some (placed 0 (flowParas (P.map .para ++ T.map .table)), []) := by
  obtain ⟨L, hH, hsub⟩ := h.content
  generalize hF : flowParas (P.map SItem.para ++ T.map .table) = F at hH
  have hpos := h.positive
  rw [hF] at hpos
  have htab : ∀ (n : Int) (l : List STable), (∀ t ∈ l, t ∈ T) → Store.refreshPositions s.text ((l.map SItem.table).map SItem.entry) n (placed 0 F) = some (placed 0 F, []) := by
    intro n l hl
    induction l with
    | nil => rfl
    | cons t l ih =>
      simp only [List.map_cons, SItem.entry, Store.refreshPositions]
      rw [if_pos (by omega)]
      exact ih fun x hx => hl x (by simp [hx])
  have key : ∀ Y X, F = X ++ Y ++ T.flatMap (fun t => t.cells.flatMap SCell.paras) →
      Store.refreshPositions s.text ((Y.map SItem.para).map SItem.entry ++ (T.map SItem.table).map SItem.entry)
        (charsBefore (paras X) : Int) (placed 0 F) = some (placed 0 F, []) := by
    intro Y
    induction Y with
    | nil => intro X _; simpa using htab _ T fun t ht => ht
    | cons p Y ih =>
      intro X e
      have e' : F = X ++ p :: (Y ++ T.flatMap (fun t => t.cells.flatMap SCell.paras)) := by rw [e]; simp
      have hp : p ∈ F := by rw [e']; simp
      have h0 := hpos p hp
      have hn := hH.ids_nodup
      rw [e'] at hn
      have hfind : (placed 0 F).find? (fun b => b.id == p.id) = some (p.entity (charsBefore (paras X))) := by
        rw [e', placed_append]
        simp only [placed, Int.zero_add]
        refine find_here (x := p.entity (charsBefore (paras X))) ?_
        intro y hy
        obtain ⟨q, hq, hqy⟩ := (placed_mem hy).2
        rw [hqy]
        simp only [List.map_append, List.nodup_append] at hn
        exact hn.2.2 q.id (List.mem_map_of_mem hq) p.id (by simp)
      simp only [List.map_cons, SItem.entry, List.cons_append, Store.refreshPositions]
      rw [if_neg (by omega), Int.toNat_natCast, hfind]
      simp only
      rw [show (p.entity (charsBefore (paras X))).id = p.id from rfl, hH.charLength hp, Option.bind_some, if_neg (by simp [SPara.entity])]
      have := ih (X ++ [p]) (by rw [e]; simp)
      rw [paras_append, show charsBefore (paras X ++ paras [p]) = charsBefore (paras X) + (p.text.length + 1) by
        simp [charsBefore, paras]] at this
      rw [← this]; push_cast; rfl
  have := key P [] (by rw [← hF, flowParas_trailing]; simp)
  rw [List.map_append]
  simpa [charsBefore, paras] using this

theorem Tabled.placedEntities (h : Tabled s d f items) (hp : Placed s (flowParas items)) :
    s.getBlocks ((flowParas items).map SPara.id) = placed 0 (flowParas items) := by
  obtain ⟨L, hH, hsub⟩ := h.content
  rw [hH.getBlocks _ fun q hq => hq]
  apply map_entity_placed
  intro L p R e
  obtain ⟨b, h1, h2⟩ := hp L p R e
  simp [Store.storedPos, h1, h2]

theorem mapOpt_append' {α β : Type} (g : α → Option β) (A B : List α) :
    mapOpt g (A ++ B) = (mapOpt g A).bind fun x => (mapOpt g B).map fun y => x ++ y := by
  induction A with
  | nil => simp [mapOpt]
  | cons a A ih =>
    simp only [List.cons_append, mapOpt, ih]
    cases g a <;> cases mapOpt g A <;> cases mapOpt g B <;> rfl

/-- Of the paragraphs in order, those that the selection touches. -/
theorem Carries.touches {α : Type} {L : List Para} {ts : List Nat} {X M Y : List SPara} (hH : Carries s L (X ++ M ++ Y) ts)
    (F : Block → α) {start stop : Int} (hX : (charsBefore (paras X) : Int) ≤ start)
    (h1 : ∀ m M', M = m :: M' → start ≤ charsBefore (paras X) + m.chars.length)
    (h2 : ∀ M' z, M = M' ++ [z] → (charsBefore (paras (X ++ M')) : Int) ≤ stop)
    (h3 : stop < charsBefore (paras (X ++ M))) :
    (mapOpt (fun b : Block => (blockCharLength s.text b.id).map fun (len : Nat) =>
      if b.documentPosition + len < start ∨ b.documentPosition > stop then [] else [F b]) (placed 0 (X ++ M ++ Y))).map List.flatten =
      some ((placed (charsBefore (paras X)) M).map F) := by
  have one : ∀ A q B, X ++ M ++ Y = A ++ q :: B → (blockCharLength s.text (q.entity (charsBefore (paras A))).id).map (fun (len : Nat) =>
      if (q.entity (charsBefore (paras A))).documentPosition + len < start ∨ (q.entity (charsBefore (paras A))).documentPosition > stop then []
      else [F (q.entity (charsBefore (paras A)))]) =
      some (if (charsBefore (paras A) : Int) + q.chars.length < start ∨ (charsBefore (paras A) : Int) > stop then []
        else [F (q.entity (charsBefore (paras A)))]) := by
    intro A q B e
    rw [show (q.entity (charsBefore (paras A))).id = q.id from rfl, hH.charLength (by rw [e]; simp), SPara.text_len]
    rfl
  have all : ∀ Q A B, X ++ M ++ Y = A ++ Q ++ B → (∃ l, mapOpt (fun b : Block => (blockCharLength s.text b.id).map fun (len : Nat) =>
      if b.documentPosition + len < start ∨ b.documentPosition > stop then [] else [F b]) (placed (charsBefore (paras A)) Q) = some l ∧
      ((∀ A' q B', Q = A' ++ q :: B' → (charsBefore (paras (A ++ A')) : Int) + q.chars.length < start ∨
        (charsBefore (paras (A ++ A')) : Int) > stop) → l.flatten = []) ∧
      ((∀ A' q B', Q = A' ++ q :: B' → ¬ ((charsBefore (paras (A ++ A')) : Int) + q.chars.length < start ∨
        (charsBefore (paras (A ++ A')) : Int) > stop)) → l.flatten = (placed (charsBefore (paras A)) Q).map F)) := by
    intro Q
    induction Q with
    | nil => intro A B _; exact ⟨[], rfl, by simp, by simp [placed]⟩
    | cons q Q ih =>
      intro A B e
      obtain ⟨l, k1, k2, k3⟩ := ih (A ++ [q]) B (by rw [e]; simp)
      have hcb : charsBefore (paras (A ++ [q])) = charsBefore (paras A) + (q.text.length + 1) := by
        simp [charsBefore, paras]
      rw [hcb] at k1 k3
      have hone := one A q (Q ++ B) (by rw [e]; simp)
      simp only [placed, mapOpt]
      rw [hone]
      rw [show (((charsBefore (paras A) + (q.text.length + 1) : Nat) : Int)) = (charsBefore (paras A) : Int) + ((q.text.length : Int) + 1) by push_cast; rfl] at k1 k3
      rw [k1]
      refine ⟨_, rfl, ?_, ?_⟩
      · intro hh
        rw [List.flatten_cons, if_pos (by simpa using hh [] q Q rfl), k2, List.nil_append]
        intro A' x B' ex
        simpa using hh (q :: A') x B' (by rw [ex]; rfl)
      · intro hh
        rw [List.flatten_cons, if_neg (by simpa using hh [] q Q rfl), k3]
        · rfl
        · intro A' x B' ex
          simpa using hh (q :: A') x B' (by rw [ex]; rfl)
  obtain ⟨l1, a1, a2, _⟩ := all X [] (M ++ Y) (by simp)
  obtain ⟨l2, b1, _, b3⟩ := all M X Y rfl
  obtain ⟨l3, c1, c2, _⟩ := all Y (X ++ M) [] (by simp)
  have e0 : ((charsBefore (paras ([] : List SPara)) : Nat) : Int) = 0 := rfl
  rw [e0] at a1
  rw [placed_append, placed_append, mapOpt_append', mapOpt_append', Int.zero_add, Int.zero_add, a1, b1, c1]
  simp only [Option.bind_some, Option.map_some, List.flatten_append]
  rw [a2, b3, c2]
  · simp
  · intro A' q B' e
    right
    have : charsBefore (paras (X ++ M)) ≤ charsBefore (paras (X ++ M ++ A')) := by
      rw [charsBefore_paras_two (X ++ M)]; omega
    omega
  · intro A' q B' e
    have g1 : charsBefore (paras X) ≤ charsBefore (paras (X ++ A')) := by rw [paras_append]; simp [charsBefore]
    intro hor
    rcases hor with hlt | hgt
    · cases A' with
      | nil => have := h1 q B' e; simp at hlt; omega
      | cons m A' =>
        have := h1 m (A' ++ q :: B') e
        have g : charsBefore (paras (X ++ m :: A')) = charsBefore (paras X) + (m.chars.length + 1 + charsBefore (paras A')) := by
          rw [paras_append, ← charsBefore_paras_cons]; simp [charsBefore]
        omega
    · rcases List.eq_nil_or_concat B' with rfl | ⟨B2, z, rfl⟩
      · have := h2 A' q e; omega
      · have hz := h2 (A' ++ q :: B2) z (by rw [e]; simp)
        have : charsBefore (paras (X ++ A')) ≤ charsBefore (paras (X ++ (A' ++ q :: B2))) := by
          rw [← List.append_assoc, paras_append (X ++ A')]; simp [charsBefore]
        omega
  · intro A' q B' e
    left
    have : charsBefore (paras A') + (q.chars.length + 1) ≤ charsBefore (paras X) := by
      rw [e, charsBefore_paras_two, charsBefore_paras_cons]; omega
    simp only [List.nil_append]
    omega

theorem Carries.cut {L : List Para} {ts : List Nat} {A B : List SPara} {p : SPara} {a m b : List SChar} {blk : Block}
    (h : Carries s L (A ++ p :: B) ts) (hc : p.chars = a ++ m ++ b) (hb : IsBlock p blk) :
    ∃ r, ropeDeleteInBlock (((s.editRuns p.id fun runs => shiftRunsForDelete runs
        (utf8Len (a.map Prod.fst)) (utf8Len (a.map Prod.fst) + utf8Len (m.map Prod.fst))).editImages
        p.id fun im => (shiftImagesForDelete im (utf8Len (a.map Prod.fst))
          (utf8Len (a.map Prod.fst) + utf8Len (m.map Prod.fst))).1).text) p.id
        (utf8Len (a.map Prod.fst)) (utf8Len (a.map Prod.fst) + utf8Len (m.map Prod.fst)) = some r ∧
      Carries ((((s.editRuns p.id fun runs => shiftRunsForDelete runs
        (utf8Len (a.map Prod.fst)) (utf8Len (a.map Prod.fst) + utf8Len (m.map Prod.fst))).editImages
        p.id fun im => (shiftImagesForDelete im (utf8Len (a.map Prod.fst))
          (utf8Len (a.map Prod.fst) + utf8Len (m.map Prod.fst))).1).withText r).updateBlock blk)
        (L.map (retext p.id ((a ++ b).map Prod.fst))) (A ++ { p with chars := a ++ b } :: B) ts := by
  have hpm : p ∈ A ++ p :: B := by simp
  have ht := h.text
  have hpt : p.text = a.map Prod.fst ++ m.map Prod.fst ++ b.map Prod.fst := by simp [SPara.text, hc]
  obtain ⟨X, Y, hXY⟩ := h.split hpm
  have hLmap : L.map (retext p.id ((a ++ b).map Prod.fst)) = X ++ (.block p.id, (a ++ b).map Prod.fst) :: Y := by
    rw [hXY]
    apply map_retext_split
    rw [← hXY]; exact h.text.nodup
  rw [hXY, hpt] at ht
  obtain ⟨st', hst, hrep⟩ := deleteInBlock_repr ht
  have hf := h.formats p hpm
  rw [hc] at hf
  refine ⟨st', hst, ?_⟩
  have hrepl := h.replace (s' := ((s.editRuns p.id fun runs => shiftRunsForDelete runs
        (utf8Len (a.map Prod.fst)) (utf8Len (a.map Prod.fst) + utf8Len (m.map Prod.fst))).editImages
        p.id fun im => (shiftImagesForDelete im (utf8Len (a.map Prod.fst))
          (utf8Len (a.map Prod.fst) + utf8Len (m.map Prod.fst))).1).withText st')
    (a ++ b) rfl rfl ?_ ?_ ?_ ?_ ?_
  · exact hrepl.updateBlock (p := { p with chars := a ++ b }) (by simp) hb
  · show Repr ⟨st'.rope, st'.idx⟩ _
    rw [hLmap]
    simpa using hrep
  · intro i hi
    simp only [Store.withText, Store.editImages, Store.editRuns, IdMap.insert, hi, if_false]
  · simp only [Store.withText, Store.editImages, Store.editRuns, IdMap.insert, if_true, Option.getD_some]
    exact hf.delete
  · intro i hi
    simp only [Store.withText, Store.editImages, Store.editRuns, IdMap.insert, hi, if_false]
  · simp only [Store.withText, Store.editImages, Store.editRuns, IdMap.insert, if_true,
      Option.getD_some, h.images p hpm]
    simp only [shiftImagesForDelete]
    split <;> simp [shiftImagesAfter]

/-- The frames searched for the cell of a paragraph. -/
theorem Arranged.mem_cellFrames (h : Arranged s d f items) {g : Nat} :
    g ∈ ((s.docTables d.id).flatMap fun t => (((s.tables t).map Table.cells).getD []).filterMap fun c => s.tableCells c).filterMap
      TableCell.cellFrame ↔ ∃ t ∈ tablesOf items, ∃ c ∈ t.cells, c.frame = g := by
  have hd : s.docTables d.id = d.tables := by simp [Store.docTables, h.document]
  rw [hd, List.mem_filterMap]
  constructor
  · rintro ⟨x, hx, hg⟩
    obtain ⟨i, hi, hx⟩ := List.mem_flatMap.mp hx
    obtain ⟨t, ht, rfl⟩ := List.mem_map.mp (h.tables.mem_iff.mp hi)
    rw [(h.table t ht).table] at hx
    obtain ⟨j, hj, hx⟩ := List.mem_filterMap.mp hx
    obtain ⟨c, hc, rfl⟩ := List.mem_map.mp ((h.table t ht).cells.mem_iff.mp hj)
    obtain ⟨c1, c2, _⟩ := (h.table t ht).cell c hc
    rw [c1] at hx
    cases hx
    rw [c2] at hg
    exact ⟨t, ht, c, hc, by simpa using hg⟩
  · rintro ⟨t, ht, c, hc, rfl⟩
    obtain ⟨c1, c2, _⟩ := (h.table t ht).cell c hc
    refine ⟨c.cell, List.mem_flatMap.mpr ⟨t.table.id, h.tables.mem_iff.mpr (List.mem_map_of_mem ht), ?_⟩, c2⟩
    rw [(h.table t ht).table]
    exact List.mem_filterMap.mpr ⟨c.cell.id, (h.table t ht).cells.mem_iff.mpr (List.mem_map_of_mem hc), c1⟩

theorem Arranged.cellFrameOf_cell (h : Arranged s d f items) {t : STable} (ht : t ∈ tablesOf items) {c : SCell} (hc : c ∈ t.cells)
    {p : SPara} (hp : p ∈ c.paras) : s.cellFrameOf d.id p.id = some c.frame := by
  have hb : p.id ∈ s.frameBlocks c.frame := (h.cellFrameBlocks ht hc).mem_iff.mpr (List.mem_map_of_mem hp)
  unfold Store.cellFrameOf
  have hm := h.mem_cellFrames.mpr ⟨t, ht, c, hc, rfl⟩
  dsimp only at hm ⊢
  cases e : List.find? (fun f => (s.frameBlocks f).contains p.id) (List.reverse (List.filterMap TableCell.cellFrame
      (List.flatMap (fun t => List.filterMap (fun c => s.tableCells c) (((s.tables t).map Table.cells).getD [])) (s.docTables d.id)))) with
  | none =>
    rw [List.find?_eq_none] at e
    exact absurd (by simpa using hb) (e _ (List.mem_reverse.mpr hm))
  | some g =>
    have hg := List.find?_some e
    have hgb : p.id ∈ s.frameBlocks g := by simpa using hg
    rw [h.frame_unique hgb hb]

theorem Arranged.cellFrameOf_top (h : Arranged s d f items) {p : SPara} (hp : p ∈ topParas items) : s.cellFrameOf d.id p.id = none := by
  have hb : p.id ∈ s.frameBlocks f := h.mainFrameBlocks.mem_iff.mpr (List.mem_map_of_mem hp)
  unfold Store.cellFrameOf
  rw [List.find?_eq_none]
  intro g hg hgb
  obtain ⟨t, ht, c, hc, rfl⟩ := h.mem_cellFrames.mp (List.mem_reverse.mp hg)
  have := h.frame_unique (by simpa using hgb) hb
  exact (List.nodup_cons.mp h.distinct.1).1 (mem_tableFrames_iff.mpr ⟨t, ht, .inr (List.mem_map.mpr ⟨c, hc, this⟩)⟩)

/-- `delete_text` up to the choice of its branch. -/
theorem Tabled.deleteStart (h : Tabled s d f (P.map .para ++ T.map .table)) (hT : T ≠ []) :
    s.docId = some d.id ∧ s.documents d.id = some d ∧ (s.docFrames d.id).head? = some f ∧
    s.flowIds f = some ((flowParas (P.map .para ++ T.map .table)).map SPara.id) ∧ (∃ fr, s.frames f = some fr ∧
    Store.refreshPositions s.text fr.childOrder 0 (s.getBlocks ((flowParas (P.map .para ++ T.map .table)).map SPara.id)) =
      some (placed 0 (flowParas (P.map .para ++ T.map .table)), [])) ∧
    sortByKey Block.documentPosition (placed 0 (flowParas (P.map .para ++ T.map .table))) =
      placed 0 (flowParas (P.map .para ++ T.map .table)) ∧ Placed s (flowParas (P.map .para ++ T.map .table)) := by
  have hp := placed_of_seated (h.seated (by rw [tablesOf_trailing]; exact hT))
  obtain ⟨fr, f1, f2, f3, f4, f5, f6, f7⟩ := h.frame
  obtain ⟨rest, h1, h2⟩ := h.frames
  refine ⟨h.docIdOf, h.document, ?_, h.flowIds, ⟨fr, f1, ?_⟩, sortByKey_of_sorted _ (placed_sorted 0 _), hp⟩
  · unfold Store.docFrames; rw [h.document]; simp [h1]
  · rw [f6, h.placedEntities hp]; exact h.refresh

theorem isCrossCell_eq (did : Nat) (blocks : List Block) (start stop : Int) : s.isCrossCell did blocks start stop =
    ((mapOpt (fun b : Block => (blockCharLength s.text b.id).map fun (len : Nat) =>
      if b.documentPosition + len < start ∨ b.documentPosition > stop then [] else [s.cellFrameOf did b.id]) blocks).map List.flatten).map
      fun | [] => false | c :: cs => cs.any fun c' => decide (c' ≠ c) := by
  unfold Store.isCrossCell
  rw [Option.map_map]
  rfl

/-- Deleting inside a paragraph. -/
theorem Tabled.deleteInside {p : SPara} {X Y : List SPara} {a m b : List SChar} (h : Tabled s d f (P.map .para ++ T.map .table)) (hT : T ≠ [])
    (e : flowParas (P.map .para ++ T.map .table) = X ++ p :: Y) (hc : p.chars = a ++ m ++ b) (hm : m ≠ []) {position anchor : Int}
    (hmin : min position anchor = ((charsBefore (paras X) + a.length : Nat) : Int))
    (hmax : max position anchor = ((charsBefore (paras X) + (a.length + m.length) : Nat) : Int)) :
    ∃ s', s.deleteText position anchor = some (s', ⟨min position anchor, m.map Prod.fst⟩, s.snapshot) ∧
      Tabled s' { d with characterCount := d.characterCount - m.length } f
        ((P.map SItem.para ++ T.map SItem.table).map (SItem.on fun q => if q.id = p.id then { q with chars := a ++ b } else q)) ∧
      SameShell s s' ∧ s'.counters = s.counters := by
  obtain ⟨g1, g2, g3, g4, ⟨fr, g5, g6⟩, g7, hpl⟩ := h.deleteStart hT
  have hml : 0 < m.length := List.length_pos_iff.mpr hm
  have ht : tablesOf (P.map SItem.para ++ T.map .table) ≠ [] := by rw [tablesOf_trailing]; exact hT
  obtain ⟨L, hH, hsub⟩ := h.content
  generalize hit : P.map SItem.para ++ T.map SItem.table = items at *
  have hpm : p ∈ flowParas items := by rw [e]; simp
  have hn := hH.ids_nodup
  have hH' := hH
  rw [e] at hH'
  have hplX := hpl
  rw [e] at hplX
  obtain ⟨blk0, q1, q2⟩ := hplX X p Y rfl
  have hsp : s.storedPos p = (charsBefore (paras X) : Int) := by simp [Store.storedPos, q1, q2]
  have hst := hH.stored hpm
  rw [hsp] at hst
  have hg : ∀ q : SPara, (if q.id = p.id then { q with chars := a ++ b } else q).id = q.id := by
    intro q; split <;> rfl
  have hmap : (flowParas items).map (fun q => if q.id = p.id then { q with chars := a ++ b } else q) =
      X ++ { p with chars := a ++ b } :: Y := by
    rw [← map_replace (p := p) (by rw [← e]; exact hn), ← e]
    apply List.map_congr_left
    intro q hq
    by_cases hq' : q.id = p.id
    · rw [if_pos hq', if_pos hq', hH.unique hpm hq hq']
    · rw [if_neg hq', if_neg hq']
  obtain ⟨r, hr, hs1⟩ := hH'.cut hc (isBlock_entity p (charsBefore (paras X)))
  have hlen : p.chars.length = a.length + m.length + b.length := by rw [hc]; simp; omega
  have htouch := Carries.touches (s := s) (X := X) (M := [p]) (Y := Y) (by simpa using hH') (fun b => s.cellFrameOf d.id b.id)
    (start := min position anchor) (stop := max position anchor) (by rw [hmin]; push_cast; omega)
    (by
      intro z Z ez
      simp only [List.cons.injEq] at ez
      rw [hmin, ← ez.1]; push_cast; omega)
    (by
      intro Z z ez
      have : Z = [] := by
        cases Z with
        | nil => rfl
        | cons y Z => simp at ez
      subst this
      rw [hmax]; simp only [List.append_nil]; push_cast; omega)
    (by rw [hmax, charsBefore_paras_two, charsBefore_paras_cons]; push_cast; omega)
  rw [show X ++ [p] ++ Y = X ++ p :: Y by simp, ← e] at htouch
  unfold Store.deleteText
  rw [g1, Option.bind_some, if_neg (by omega)]
  dsimp only
  rw [g2, Option.bind_some, g3, Option.bind_some, g4, Option.bind_some, g5, Option.bind_some, g6, Option.bind_some]
  dsimp only
  rw [g7, show s.updateBlocks [] = s from rfl, hmin, h.find e (b := m ++ b) (by rw [hc]; simp), Option.bind_some]
  dsimp only
  rw [isCrossCell_eq, ← hmin, htouch]
  simp only [placed, List.map_cons, List.map_nil, Option.map_some, Option.bind_some, List.any_nil, Bool.false_eq_true, if_false]
  rw [hmax]
  have hfind := h.find e (a := a ++ m) (b := b) hc
  rw [List.length_append] at hfind
  rw [hfind, Option.bind_some]
  dsimp only
  rw [if_pos rfl]
  unfold Store.deleteSame
  dsimp only
  have o1 : logicalOffsetToByte p.text (s.imagesOf p.id) (a.length : Int) = utf8Len (a.map Prod.fst) := by
    rw [hH.offset hpm, text_take (a := a) (b := m ++ b) (by simp [hc])]
  have o2 : logicalOffsetToByte p.text (s.imagesOf p.id) ((a.length + m.length : Nat) : Int) =
      utf8Len (a.map Prod.fst) + utf8Len (m.map Prod.fst) := by
    rw [hH.offset hpm, take_two hc]; simp
  rw [show (p.entity (charsBefore (paras X))).id = p.id from rfl, hH.content hpm, Option.bind_some]
  rw [o1, o2, slice_mid hc, Option.bind_some, hr, Option.bind_some, hs1.matchFlow, if_neg (by simpa using ht)]
  generalize hS1 : ((((s.editRuns p.id fun runs => shiftRunsForDelete runs
        (utf8Len (a.map Prod.fst)) (utf8Len (a.map Prod.fst) + utf8Len (m.map Prod.fst))).editImages
        p.id fun im => (shiftImagesForDelete im (utf8Len (a.map Prod.fst))
          (utf8Len (a.map Prod.fst) + utf8Len (m.map Prod.fst))).1).withText r).updateBlock (p.entity (charsBefore (paras X)))) = s1 at *
  have hb1 : ∀ i, s1.blocks i = s.blocks i := by
    intro i
    rw [← hS1]
    by_cases hi : i = p.id
    · subst hi
      simp only [Store.updateBlock, Store.withText, Store.editImages, Store.editRuns, SPara.entity, IdMap.insert_get, if_true]
      rw [hst]
      simp [Store.keepBlock, SPara.entity]
    · simp only [Store.updateBlock, Store.withText, Store.editImages, Store.editRuns, SPara.entity, IdMap.insert_get, if_neg hi]
  have hsh : SameShell s s1 := by rw [← hS1]; exact ⟨rfl, rfl, rfl, rfl, rfl, rfl⟩
  have hcnt : s1.counters = s.counters := by rw [← hS1]; rfl
  have hdoc : s1.documents = s.documents := by rw [← hS1]; rfl
  have hdrop : (placed 0 (flowParas items)).drop (X.length + 1) = placed ((charsBefore (paras X) : Int) + (p.text.length + 1)) Y := by
    rw [e, placed_append, List.drop_append, placed_length]
    simp [placed, placed_length]
  rw [hdrop]
  have hmem : ∀ x ∈ placed ((charsBefore (paras X) : Int) + (p.text.length + 1)) Y, ∃ q ∈ Y, x = q.entity (s.storedPos q) ∧
      s1.blocks x.id = some x := by
    intro x hx
    obtain ⟨A, q, B, eY, ex⟩ := mem_placed hx
    obtain ⟨bq, k1, k2⟩ := hplX (X ++ p :: A) q B (by rw [eY]; simp)
    have hq : q ∈ flowParas items := by rw [e, eY]; simp
    have hpos : s.storedPos q = (charsBefore (paras X) : Int) + (p.text.length + 1) + charsBefore (paras A) := by
      simp only [Store.storedPos, k1, Option.map_some, Option.getD_some, k2]
      rw [charsBefore_paras_two, charsBefore_paras_cons, SPara.text_len]; push_cast; omega
    refine ⟨q, by rw [eY]; simp, by rw [ex, hpos], ?_⟩
    rw [hb1, ex, ← hpos]
    exact hH.stored hq
  have hYids : ((placed ((charsBefore (paras X) : Int) + (p.text.length + 1)) Y).map Block.id).Nodup := by
    rw [placed_ids]
    rw [e, List.map_append, List.nodup_append] at hn
    exact (List.nodup_cons.mp hn.2.1).2
  obtain ⟨k1, k2, mm, k3⟩ := shiftStored_get (s := s1)
    (n := -(((charsBefore (paras X) + (a.length + m.length) : Nat) : Int) - min position anchor)) hYids fun x hx => (hmem x hx).choose_spec.2.2
  have hshift : ∀ q ∈ Y, (s1.shiftStored (placed ((charsBefore (paras X) : Int) + (p.text.length + 1)) Y)
      (-(((charsBefore (paras X) + (a.length + m.length) : Nat) : Int) - min position anchor))).blocks q.id =
      some (q.entity (s.storedPos q - m.length)) := by
    intro q hq
    have : q.id ∈ (placed ((charsBefore (paras X) : Int) + (p.text.length + 1)) Y).map Block.id := by
      rw [placed_ids]; exact List.mem_map_of_mem hq
    obtain ⟨x, hx, hxid⟩ := List.mem_map.mp this
    obtain ⟨q', hq', ex, _⟩ := hmem x hx
    have hqq : q' = q := hH.unique (by rw [e]; simp [hq]) (by rw [e]; simp [hq']) (by rw [← hxid, ex]; rfl)
    subst hqq
    have := k1 x hx
    rw [ex] at this
    rw [show q'.id = (q'.entity (s.storedPos q')).id from rfl, this, hmin]
    simp only [SPara.entity, Option.some.injEq, Block.mk.injEq, true_and]
    push_cast
    refine ⟨?_, trivial⟩
    omega
  have hkeep : ∀ q ∈ X ++ [p], (s1.shiftStored (placed ((charsBefore (paras X) : Int) + (p.text.length + 1)) Y)
      (-(((charsBefore (paras X) + (a.length + m.length) : Nat) : Int) - min position anchor))).blocks q.id = s.blocks q.id := by
    intro q hq
    rw [k2, hb1]
    rw [placed_ids]
    intro hm'
    rw [show X ++ p :: Y = (X ++ [p]) ++ Y by simp] at e
    rw [e, List.map_append, List.nodup_append] at hn
    exact hn.2.2 _ (List.mem_map_of_mem hq) _ hm' rfl
  generalize hS2 : s1.shiftStored (placed ((charsBefore (paras X) : Int) + (p.text.length + 1)) Y)
      (-(((charsBefore (paras X) + (a.length + m.length) : Nat) : Int) - min position anchor)) = s2 at *
  have hs2 : Carries s2 (L.map (retext p.id ((a ++ b).map Prod.fst))) (X ++ { p with chars := a ++ b } :: Y)
      ((tablesOf items).map fun t => t.table.id) := by
    rw [← hS2]
    unfold Store.shiftStored
    apply hs1.updateBlocks
    intro x hx
    obtain ⟨y, hy, rfl⟩ := List.mem_map.mp hx
    obtain ⟨q, hq, rfl, _⟩ := hmem y hy
    exact ⟨q, by simp [hq], rfl⟩
  refine ⟨_, rfl, ?_, ?_, ?_⟩
  · have hcc : d.characterCount - (((charsBefore (paras X) + (a.length + m.length) : Nat) : Int) - min position anchor) =
        d.characterCount - m.length := by rw [hmin]; push_cast; omega
    rw [hcc]
    refine h.on hg (d' := { d with characterCount := d.characterCount - m.length }) (L := L.map (retext p.id ((a ++ b).map Prod.fst)))
      ?_ ?_ ?_ ?_ rfl rfl rfl ?_ ?_ ?_ ?_ ?_
    · rw [hmap]; exact hs2.of_same rfl rfl rfl rfl rfl
    · rw [← paras_retext]; exact hsub.map _
    · intro _
      rw [hmap]
      apply seated_of_placed
      refine placed_resized (n := -(m.length : Int)) hplX rfl ?_ ?_
      · rw [hlen]; simp; omega
      · intro q hq bq hbq
        have hqm : q ∈ flowParas items := by rw [e]; exact hq
        have hbq' := hbq
        rw [hH.stored hqm] at hbq'
        cases hbq'
        rcases List.mem_append.mp hq with hq1 | hq1
        · obtain ⟨A, B, eX⟩ := List.append_of_mem hq1
          obtain ⟨b2, w1, w2⟩ := hplX A q (B ++ p :: Y) (by rw [eX]; simp)
          refine ⟨_, (hkeep q (by simp [hq1])).trans (hH.stored hqm), ?_⟩
          rw [if_neg]
          simp only [SPara.entity, Store.storedPos, w1, Option.map_some, Option.getD_some, w2]
          rw [eX, charsBefore_paras_two, charsBefore_paras_cons]; push_cast; omega
        · rcases List.mem_cons.mp hq1 with rfl | hq1
          · refine ⟨_, (hkeep q (by simp)).trans (hH.stored hqm), ?_⟩
            rw [if_neg]
            simp only [SPara.entity, hsp]; omega
          · obtain ⟨A, B, eY⟩ := List.append_of_mem hq1
            obtain ⟨b2, w1, w2⟩ := hplX (X ++ p :: A) q B (by rw [eY]; simp)
            refine ⟨_, hshift q hq1, ?_⟩
            rw [if_pos]
            · rfl
            · simp only [SPara.entity, Store.storedPos, w1, Option.map_some, Option.getD_some, w2]
              rw [charsBefore_paras_two, charsBefore_paras_cons]; push_cast; omega
    · rw [k3]
      simp only [Store.updateDocument, IdMap.insert_get, if_true]
      rw [hdoc, h.document]
      rfl
    · rw [k3]; exact hsh.roots
    · rw [k3]; exact hsh.frames
    · rw [k3]; exact hsh.tables
    · rw [k3]; exact hsh.tableCells
    · intro k; rw [k3]; unfold Store.next; exact congrArg (fun c : String → Option Nat => (c k).getD 1) hcnt
  · rw [k3]; exact ⟨hsh.roots, hsh.frames, hsh.lists, hsh.resources, hsh.tables, hsh.tableCells⟩
  · rw [k3]; exact hcnt

end Verif

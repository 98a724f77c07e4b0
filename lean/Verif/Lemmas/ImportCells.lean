import Verif.Lemmas.ImportMid
import Verif.Lemmas.TableMake
/- A document half loaded: tables. -/
namespace Verif
variable {s s' : Store} {d : Document} {L : List Para} {ps : List SPara} {ts : List Nat} {past : Imported} {x : ImportSt}
open Store

theorem Mid.same (h : Mid s d L ps ts x past) (h1 : s'.text = s.text) (h2 : s'.blocks = s.blocks)
    (h3 : s'.formatRuns = s.formatRuns) (h4 : s'.blockImages = s.blockImages) (hd : s'.documents = s.documents)
    (hf : ∀ i, (s.frames i).isSome → (s'.frames i).isSome)
    (hfb : ∀ g fr, s'.frames g = some fr → fr.id = g ∧ ∀ i ∈ fr.blocks, (s.blocks i).isSome)
    (ht : ∀ i, (s.tables i).isSome → (s'.tables i).isSome) (hl : s'.lists = s.lists)
    (hn1 : s'.next "block" = s.next "block") (hn2 : s.next "table" ≤ s'.next "table")
    (hn3 : s'.next "list" = s.next "list") : Mid s' d L ps ts x past := by
  refine ⟨h.penned.of_same h1 h2 h3 h4 hn1 hn2, by rw [hd]; exact h.document, by rw [hd]; exact h.docs,
    fun i hi => hf i (h.docFrames i hi), fun i hi => ht i (h.docTables i hi), by rw [h2]; exact hfb, ?_, h.knows, ?_, h.depth,
    fun q hq => hf _ (h.stack q hq), h.emitted, h.chars, h.count⟩
  · obtain ⟨k1, k2, k3, k4, k5⟩ := h.lists
    exact ⟨by rw [hl]; exact k1, by rw [hl]; exact k2, k3, k4, by rw [hl, hn3]; exact k5⟩
  · unfold PastLists; rw [hl]; exact h.past

/-- A paragraph that is no list item. -/
theorem Mid.add (h : Mid s d L ps ts x past) (hL : L ≠ []) {g : Nat} {fr : Frame} (hf : s.frames g = some fr)
    {pos : Int} (hpos : pos = charsBefore (paras ps)) {cs : List SChar} {content : List Char × List (Run CharFormat)}
    (ht : content.1 = cs.map Prod.fst) (hr : StyledOk content.2 cs) :
    ∃ s', s.addParagraph g { documentPosition := pos } true content = some (s.next "block", s') ∧
      Mid s' d (L ++ paras [⟨s.next "block", cs, {}⟩]) (ps ++ [⟨s.next "block", cs, {}⟩]) ts
        { x with chars := x.chars + cs.length, count := x.count + 1 } past ∧ Aside s s' g fr := by
  obtain ⟨s1, e1, h1, ha⟩ := h.penned.add hf (h.frameBlocks g fr hf).2 (blk := { documentPosition := pos }) rfl hpos ht hr
    (bd := true) (by simp [hL])
  refine ⟨s1, e1, ?_, ha⟩
  have hbl : ∀ i, (s.blocks i).isSome → (s1.blocks i).isSome := by
    intro i hi
    by_cases e : i = s.next "block"
    · subst e
      obtain ⟨b1, hb1, _⟩ := h1.block _ (List.mem_append_right ps (List.mem_singleton.mpr rfl))
      simp only at hb1
      rw [hb1]; rfl
    · rw [ha.blocks i e]; exact hi
  have hnew : (s1.blocks (s.next "block")).isSome := by
    obtain ⟨b1, hb1, _⟩ := h1.block _ (List.mem_append_right ps (List.mem_singleton.mpr rfl))
    simp only at hb1
    rw [hb1]; rfl
  have hfs : ∀ i, (s.frames i).isSome → (s1.frames i).isSome := by
    intro i hi
    rw [ha.frames, IdMap.insert_get]
    split
    · rfl
    · exact hi
  refine ⟨h1, by rw [ha.documents]; exact h.document, by rw [ha.documents]; exact h.docs, fun i hi => hfs i (h.docFrames i hi),
    by rw [ha.tables]; exact h.docTables, ?_, ?_, h.knows, ?_, h.depth, fun q hq => hfs _ (h.stack q hq), ?_, ?_, ?_⟩
  · intro i y hy
    rw [ha.frames, IdMap.insert_get] at hy
    split at hy
    · rename_i e
      cases hy
      refine ⟨by rw [e]; exact (h.frameBlocks g fr hf).1, ?_⟩
      intro j hj
      rcases List.mem_append.mp hj with hj | hj
      · exact hbl j ((h.frameBlocks g fr hf).2 j hj)
      · simp only [List.mem_singleton] at hj; rw [hj]; exact hnew
    · obtain ⟨k1, k2⟩ := h.frameBlocks i y hy
      exact ⟨k1, fun j hj => hbl j (k2 j hj)⟩
  · obtain ⟨k1, k2, k3, k4, k5⟩ := ListsOk.snoc (p := ⟨s.next "block", cs, {}⟩) h.lists (by intro l e; cases e)
    exact ⟨by rw [ha.lists]; exact k1, by rw [ha.lists]; exact k2, k3, k4, by rw [ha.lists, ha.next _ (by decide)]; exact k5⟩
  · unfold PastLists; rw [ha.lists]; exact h.past
  · show x.emitted = _
    rw [h.emitted]
    simp [hL]
  · show x.chars + _ = _
    rw [h.chars, charTotal_append]
    simp [charTotal]
  · show x.count + 1 = _
    rw [h.count]
    simp

/-- The cells made, with the ids they get. -/
def filledCells : Nat → Nat → Nat → List (Nat × Nat × List ParsedSpan) → List SCell
  | _, _, _, [] => []
  | F, B, C, (r, c, xs) :: l =>
    ⟨newCell (C, F) r c 1 1, F, [⟨B, spansChars false xs, {}⟩]⟩ :: filledCells (F + 1) (B + 1) (C + 1) l

theorem filledCells_frames (F B C : Nat) (l : List (Nat × Nat × List ParsedSpan)) :
    (filledCells F B C l).map SCell.frame = List.range' F l.length := by
  induction l generalizing F B C with
  | nil => rfl
  | cons x l ih => obtain ⟨r, c, xs⟩ := x; simp [filledCells, ih, List.range'_succ]

theorem filledCells_cells (F B C : Nat) (l : List (Nat × Nat × List ParsedSpan)) :
    ((filledCells F B C l).map fun c => c.cell.id) = List.range' C l.length := by
  induction l generalizing F B C with
  | nil => rfl
  | cons x l ih => obtain ⟨r, c, xs⟩ := x; simp [filledCells, ih, List.range'_succ, newCell]

theorem filledCells_length (F B C : Nat) (l : List (Nat × Nat × List ParsedSpan)) : (filledCells F B C l).length = l.length := by
  induction l generalizing F B C with
  | nil => rfl
  | cons x l ih => obtain ⟨r, c, xs⟩ := x; simp [filledCells, ih]

theorem filledCells_face (F B C : Nat) (l : List (Nat × Nat × List ParsedSpan)) :
    (filledCells F B C l).map SCell.face = l.map fun x => cellFace x.1 x.2.1 x.2.2 := by
  induction l generalizing F B C with
  | nil => rfl
  | cons x l ih => obtain ⟨r, c, xs⟩ := x; simp [filledCells, ih]; rfl

theorem filledCells_place (F B C : Nat) (l : List (Nat × Nat × List ParsedSpan)) :
    ((filledCells F B C l).map fun c => (c.cell.row, c.cell.column)) = l.map fun x => ((x.1 : Int), (x.2.1 : Int)) := by
  induction l generalizing F B C with
  | nil => rfl
  | cons x l ih => obtain ⟨r, c, xs⟩ := x; simp [filledCells, ih, newCell]

theorem filledCells_mem {F B C : Nat} {l : List (Nat × Nat × List ParsedSpan)} {q : SCell} (h : q ∈ filledCells F B C l) :
    q.cell.cellFrame = some q.frame ∧ (∃ p, q.paras = [p]) := by
  induction l generalizing F B C with
  | nil => simp [filledCells] at h
  | cons y l ih =>
    obtain ⟨r, c, xs⟩ := y
    simp only [filledCells, List.mem_cons] at h
    rcases h with rfl | h
    · exact ⟨rfl, _, rfl⟩
    · exact ih h

theorem filledCells_paras_length (F B C : Nat) (l : List (Nat × Nat × List ParsedSpan)) :
    ((filledCells F B C l).flatMap SCell.paras).length = l.length := by
  induction l generalizing F B C with
  | nil => rfl
  | cons x l ih => obtain ⟨r, c, xs⟩ := x; simp [filledCells, ih]

/-- What making cells does to the entities. -/
structure CellsGrew (s s' : Store) (did tid : Nat) (cs : List SCell) : Prop where
  frames : ∀ c ∈ cs, s'.frames c.frame = some (freshFrame c)
  oldFrames : ∀ i, i ∉ cs.map SCell.frame → s'.frames i = s.frames i
  cells : ∀ c ∈ cs, s'.tableCells c.cell.id = some c.cell
  oldCells : ∀ i, (i ∉ cs.map fun c => c.cell.id) → s'.tableCells i = s.tableCells i
  oldDocs : ∀ i, i ≠ did → s'.documents i = s.documents i
  table : ∀ t, s.tables tid = some t → s'.tables tid = some { t with cells := t.cells ++ cs.map fun c => c.cell.id }
  oldTables : ∀ i, i ≠ tid → s'.tables i = s.tables i
  nextFrame : s'.next "frame" = s.next "frame" + cs.length
  nextCell : s'.next "table_cell" = s.next "table_cell" + cs.length
  nextTable : s'.next "table" = s.next "table"
  nextList : s'.next "list" = s.next "list"
  roots : s'.roots = s.roots
  lists : s'.lists = s.lists

/-- One cell. -/
theorem oneCell (h : Mid s d L ps ts x past) (hL : L ≠ []) {tid : Nat} {t : Table} (ht : s.tables tid = some t)
    (hcl : ∀ i ∈ t.cells, (s.tableCells i).isSome) {pos : Int} (hpos : pos = charsBefore (paras ps)) (r c : Nat) (spans : List ParsedSpan) :
    ∃ s1 created s2 s4, s.createFrame {} d.id (-1) = some (s.next "frame", s1) ∧ s1.frames (s.next "frame") = some created ∧
      s1.addParagraph (s.next "frame") { documentPosition := pos } true (formatRunsFromSpans false spans) = some (s.next "block", s2) ∧
      (s2.updateFrame { created with childOrder := [((s.next "block" : Nat) : Int)] }).createCell
        (newCell (0, s.next "frame") r c 1 1) tid (-1) = some (s.next "table_cell", s4) ∧
      Mid s4 { d with frames := d.frames ++ [s.next "frame"] } (L ++ paras [⟨s.next "block", spansChars false spans, {}⟩])
        (ps ++ [⟨s.next "block", spansChars false spans, {}⟩]) ts
        { x with chars := x.chars + (spansChars false spans).length, count := x.count + 1 } past ∧
      (∀ i, s4.frames i = if i = s.next "frame" then
        some { id := s.next "frame", blocks := [s.next "block"], childOrder := [((s.next "block" : Nat) : Int)] } else s.frames i) ∧
      (∀ i, s4.tableCells i = if i = s.next "table_cell" then some (newCell (s.next "table_cell", s.next "frame") r c 1 1) else s.tableCells i) ∧
      (∀ i, s4.tables i = if i = tid then some { t with cells := t.cells ++ [s.next "table_cell"] } else s.tables i) ∧
      (∀ i, i ≠ d.id → s4.documents i = s.documents i) ∧ s4.next "frame" = s.next "frame" + 1 ∧ s4.next "block" = s.next "block" + 1 ∧
      s4.next "table_cell" = s.next "table_cell" + 1 ∧ s4.next "table" = s.next "table" ∧ s4.next "list" = s.next "list" ∧
      s4.roots = s.roots ∧ s4.lists = s.lists := by
  obtain ⟨s1, e1, hF, hD, hT, hC, hR, hLs, hB, hn, hn', h1⟩ := openFrame_spec h (fr := {}) rfl rfl
  have hg : s1.frames (s.next "frame") = some { id := s.next "frame" } := by rw [hF]; simp
  obtain ⟨k1, k2⟩ := formatRuns_styled false spans
  obtain ⟨s2, e2, h2, ha⟩ := h1.add hL hg hpos k1 k2
  rw [hn "block" (by decide)] at e2 h2
  have haF := ha.frames
  rw [hn "block" (by decide)] at haF
  simp only [List.nil_append] at haF
  generalize hs3 : s2.updateFrame { ({ id := s.next "frame" } : Frame) with childOrder := [((s.next "block" : Nat) : Int)] } = s3
  have hF3 : ∀ i, s3.frames i = if i = s.next "frame" then
        some { id := s.next "frame", blocks := [s.next "block"], childOrder := [((s.next "block" : Nat) : Int)] } else s.frames i := by
    intro i
    rw [← hs3]
    unfold Store.updateFrame
    simp only [IdMap.insert_get, haF, if_true, hF]
    split
    · rfl
    · rfl
  have m1 : s3.tables = s.tables := by rw [← hs3]; exact ha.tables.trans hT
  have m2 : s3.tableCells = s.tableCells := by rw [← hs3]; exact ha.tableCells.trans hC
  have m3 : s3.lists = s.lists := by rw [← hs3]; exact ha.lists.trans hLs
  have m4 : s3.roots = s.roots := by rw [← hs3]; exact ha.roots.trans hR
  have m5 : s3.documents = s1.documents := by rw [← hs3]; exact ha.documents
  have m6 : ∀ k, k ≠ "block" → s3.next k = s1.next k := by intro k hk; rw [← hs3]; exact ha.next k hk
  have m7 : s3.next "block" = s.next "block" + 1 := by
    rw [← hn "block" (by decide), ← hs3]; exact ha.nextBlock
  have m8 : s3.next "table_cell" = s.next "table_cell" := by rw [m6 _ (by decide), hn _ (by decide)]
  have e4 := createCell_new (s := s3) (c := newCell (0, s.next "frame") r c 1 1) (by rw [m1]; exact ht) (by rw [m2]; exact hcl)
  rw [m8] at e4
  generalize hs4 : ({ s3 with
      counters := (s3.nextId "table_cell").2.counters
      tableCells := s3.tableCells.insert (s.next "table_cell") { newCell (0, s.next "frame") r c 1 1 with id := s.next "table_cell" }
      tables := s3.tables.insert tid { t with cells := t.cells ++ [s.next "table_cell"] } } : Store) = s4 at e4
  have p1 : ∀ k, k ≠ "table_cell" → s4.next k = s3.next k := by
    intro k hk; rw [← hs4]; exact next_other (a := "table_cell") (b := k) (Ne.symm hk) s3
  have p2 : s4.next "table_cell" = s.next "table_cell" + 1 := by
    rw [← m8, ← hs4]; exact next_self "table_cell" s3
  have p3 : s4.frames = s3.frames := by rw [← hs4]
  have p4 : ∀ i, s4.tables i = if i = tid then some { t with cells := t.cells ++ [s.next "table_cell"] } else s.tables i := by
    intro i; rw [← hs4]; simp only [IdMap.insert_get, m1]
  have p5 : ∀ i, s4.tableCells i = if i = s.next "table_cell" then some (newCell (s.next "table_cell", s.next "frame") r c 1 1) else s.tableCells i := by
    intro i; rw [← hs4]; simp only [IdMap.insert_get, m2]; rfl
  have p6 : s4.documents = s1.documents := by rw [← hs4]; exact m5
  have hb2 : (s2.blocks (s.next "block")).isSome := by
    obtain ⟨b1, hb1, _⟩ := h2.penned.block _ (List.mem_append_right ps (List.mem_singleton.mpr rfl))
    simp only at hb1
    rw [hb1]; rfl
  have h4 : Mid s4 { d with frames := d.frames ++ [s.next "frame"] } (L ++ paras [⟨s.next "block", spansChars false spans, {}⟩])
        (ps ++ [⟨s.next "block", spansChars false spans, {}⟩]) ts
        { x with chars := x.chars + (spansChars false spans).length, count := x.count + 1 } past := by
    refine h2.same (by rw [← hs4, ← hs3]; rfl) (by rw [← hs4, ← hs3]; rfl) (by rw [← hs4, ← hs3]; rfl) (by rw [← hs4, ← hs3]; rfl)
      (by rw [p6, ← m5, ← hs3]; rfl) ?_ ?_ ?_ ?_ ?_ ?_ ?_
    · intro i hi
      rw [p3, hF3]
      split
      · rfl
      · rename_i hne
        rw [haF, hF] at hi
        simp only [IdMap.insert_get, hne, if_false] at hi
        exact hi
    · intro i y hy
      rw [p3, hF3] at hy
      split at hy
      · rename_i e
        cases hy
        refine ⟨e.symm, ?_⟩
        intro j hj
        simp only [List.mem_singleton] at hj
        rw [hj]; exact hb2
      · rename_i hne
        refine h2.frameBlocks i y ?_
        rw [haF, hF]
        simp only [IdMap.insert_get, hne, if_false]
        exact hy
    · intro i hi
      rw [p4]
      split
      · rfl
      · rw [ha.tables, hT] at hi; exact hi
    · rw [← hs4, ← hs3]; rfl
    · rw [p1 _ (by decide), ← hs3]; rfl
    · rw [p1 _ (by decide), ← hs3]; exact Nat.le_refl _
    · rw [p1 _ (by decide), ← hs3]; rfl
  refine ⟨s1, _, s2, s4, e1, hg, e2, ?_, h4, by rw [p3]; exact hF3, p5, p4, ?_, ?_, ?_, p2, ?_, ?_, ?_, ?_⟩
  · rw [hs3]; exact e4
  · intro i hi; rw [p6, hD, if_neg hi]
  · rw [p1 _ (by decide), m6 _ (by decide), hn']
  · rw [p1 _ (by decide), m7]
  · rw [p1 _ (by decide), m6 _ (by decide), hn _ (by decide)]
  · rw [p1 _ (by decide), m6 _ (by decide), hn _ (by decide)]
  · rw [← hs4]; exact m4
  · rw [← hs4]; exact m3

theorem importCells_spec {tid : Nat} {total : Int} (l : List (Nat × Nat × List ParsedSpan)) :
    ∀ {s : Store} {d : Document} {L : List Para} {ps : List SPara} {x : ImportSt} {t : Table} {n pos : Int},
    Mid s d L ps ts x past → L ≠ [] → s.tables tid = some t → (∀ i ∈ t.cells, (s.tableCells i).isSome) →
    n + l.length = total → (l ≠ [] → pos = charsBefore (paras ps)) → ∀ cs,
    cs = filledCells (s.next "frame") (s.next "block") (s.next "table_cell") l →
    ∃ (pos' : Int) (s' : Store), importCells d.id tid total n pos l s = some (cs.map SCell.frame, pos', ((charTotal (cs.flatMap SCell.paras) : Nat) : Int), s') ∧
      Mid s' { d with frames := d.frames ++ cs.map SCell.frame } (L ++ paras (cs.flatMap SCell.paras)) (ps ++ cs.flatMap SCell.paras) ts
        { x with chars := x.chars + (charTotal (cs.flatMap SCell.paras) : Nat), count := x.count + l.length } past ∧
      CellsGrew s s' d.id tid cs ∧ (l ≠ [] → pos' + 1 = charsBefore (paras (ps ++ cs.flatMap SCell.paras))) ∧
      s'.next "block" = s.next "block" + l.length := by
  induction l with
  | nil =>
    intro s d L ps x t n pos h hL ht hcl hn hpos cs hcs
    subst hcs
    refine ⟨pos, s, rfl, ?_, ?_, by simp, rfl⟩
    · simpa [filledCells, paras, charTotal] using h
    · constructor <;> try (first | rfl | (intros; rfl))
      · intro c hc; simp [filledCells] at hc
      · intro c hc; simp [filledCells] at hc
      · intro x hx; simp [filledCells, hx]
  | cons y l ih =>
    obtain ⟨r, c, xs⟩ := y
    intro s d L ps x t n pos h hL ht hcl hn hpos cs hcs
    obtain ⟨s1, created, s2, s4, e1, e2, e3, e4, h4, f4, c4, t4, d4, n1, n2, n3, n4, n5, r4, l4⟩ := oneCell h hL ht hcl (hpos (by simp)) r c xs
    have hlen : ((formatRunsFromSpans false xs).1.length : Int) = ((spansChars false xs).length : Nat) := by
      rw [(formatRuns_styled false xs).1, List.length_map]
    obtain ⟨pos', s', e5, h5, G, hp5, nb5⟩ := ih (t := { t with cells := t.cells ++ [s.next "table_cell"] }) (n := n + 1)
      (pos := pos + (formatRunsFromSpans false xs).1.length + (if n + 1 < total then 1 else 0)) h4 (by simp [hL])
      (by rw [t4, if_pos rfl])
      (by
        intro i hi
        rw [c4]
        split
        · rfl
        · rename_i hne
          rcases List.mem_append.mp hi with hi | hi
          · exact hcl i hi
          · simp only [List.mem_singleton] at hi; exact absurd hi hne)
      (by simp only [List.length_cons] at hn; omega)
      (by
        intro hne
        have : 0 < l.length := List.length_pos_iff.mpr hne
        simp only [List.length_cons] at hn
        rw [if_pos (by omega), hlen, hpos (by simp), charsBefore_paras_append]
        simp only
        omega) _ rfl
    simp only at e5 h5 G hp5
    rw [n1, n2, n3] at e5 h5 G hp5
    generalize hcs2 : filledCells (s.next "frame" + 1) (s.next "block" + 1) (s.next "table_cell" + 1) l = cs2 at e5 h5 G hp5
    have hcs' : cs = ⟨newCell (s.next "table_cell", s.next "frame") r c 1 1, s.next "frame", [⟨s.next "block", spansChars false xs, {}⟩]⟩ :: cs2 := by
      rw [hcs, filledCells, hcs2]
    have hcf : cs.map SCell.frame = s.next "frame" :: cs2.map SCell.frame := by rw [hcs']; rfl
    have hcp : cs.flatMap SCell.paras = ⟨s.next "block", spansChars false xs, {}⟩ :: cs2.flatMap SCell.paras := by rw [hcs']; rfl
    refine ⟨pos', s', ?_, ?_, ?_, ?_, ?_⟩
    · rw [importCells]
      dsimp only
      rw [e1, Option.bind_some]
      dsimp only
      rw [e2, Option.bind_some, e3, Option.bind_some]
      dsimp only
      rw [e4, Option.bind_some]
      dsimp only
      rw [e5, Option.map_some, hcf, hcp, charTotal_cons]
      simp only [hlen]
      simp
    · rw [hcf, hcp]
      have a1 : paras (⟨s.next "block", spansChars false xs, {}⟩ :: cs2.flatMap SCell.paras) =
          paras [⟨s.next "block", spansChars false xs, {}⟩] ++ paras (cs2.flatMap SCell.paras) := rfl
      have a2 : d.frames ++ s.next "frame" :: cs2.map SCell.frame = (d.frames ++ [s.next "frame"]) ++ cs2.map SCell.frame := by simp
      have a3 : ps ++ (⟨s.next "block", spansChars false xs, {}⟩ : SPara) :: cs2.flatMap SCell.paras =
          (ps ++ [⟨s.next "block", spansChars false xs, {}⟩]) ++ cs2.flatMap SCell.paras := by simp
      rw [a1, a2, a3, ← List.append_assoc L, charTotal_cons]
      have a4 : x.chars + ((spansChars false xs).length + charTotal (cs2.flatMap SCell.paras) : Nat) =
          x.chars + ((spansChars false xs).length : Nat) + (charTotal (cs2.flatMap SCell.paras) : Nat) := by omega
      have a5 : x.count + (((r, c, xs) :: l).length : Nat) = x.count + 1 + (l.length : Nat) := by
        simp only [List.length_cons]; omega
      rw [a4, a5]; exact h5
    · have hF : s.next "frame" ∉ cs2.map SCell.frame := by
        rw [← hcs2, filledCells_frames]; simp [List.mem_range']; omega
      have hC : s.next "table_cell" ∉ cs2.map fun c => c.cell.id := by
        rw [← hcs2, filledCells_cells]; simp [List.mem_range']; omega
      rw [hcs']
      refine ⟨?_, ?_, ?_, ?_, ?_, ?_, ?_, ?_, ?_, ?_, ?_, G.roots.trans r4, G.lists.trans l4⟩
      · intro q hq
        rcases List.mem_cons.mp hq with rfl | hq
        · show s'.frames (s.next "frame") = _
          rw [G.oldFrames _ hF, f4, if_pos rfl]; rfl
        · exact G.frames q hq
      · intro i hi
        simp only [List.map_cons, List.mem_cons, not_or] at hi
        rw [G.oldFrames i hi.2, f4, if_neg hi.1]
      · intro q hq
        rcases List.mem_cons.mp hq with rfl | hq
        · show s'.tableCells (s.next "table_cell") = _
          rw [G.oldCells _ hC, c4, if_pos rfl]
        · exact G.cells q hq
      · intro i hi
        simp only [List.map_cons, List.mem_cons, not_or] at hi
        rw [G.oldCells i hi.2, c4, if_neg (by simpa [newCell] using hi.1)]
      · intro i hi; rw [G.oldDocs i hi, d4 i hi]
      · intro u hu
        rw [ht] at hu; cases hu
        rw [G.table _ (by rw [t4, if_pos rfl])]
        simp [newCell]
      · intro i hi; rw [G.oldTables i hi, t4, if_neg hi]
      · rw [G.nextFrame, n1]; simp only [List.length_cons]; omega
      · rw [G.nextCell, n3]; simp only [List.length_cons]; omega
      · rw [G.nextTable, n4]
      · rw [G.nextList, n5]
    · intro _
      rw [hcp]
      have a3 : ps ++ (⟨s.next "block", spansChars false xs, {}⟩ : SPara) :: cs2.flatMap SCell.paras =
          (ps ++ [⟨s.next "block", spansChars false xs, {}⟩]) ++ cs2.flatMap SCell.paras := by simp
      rw [a3]
      by_cases hl : l = []
      · subst hl
        simp only [List.length_cons, List.length_nil] at hn
        have hc0 : cs2 = [] := by rw [← hcs2]; rfl
        rw [importCells] at e5
        simp only [Option.some.injEq, Prod.mk.injEq] at e5
        rw [hc0]
        simp only [List.flatMap_nil, List.append_nil]
        rw [← e5.2.1, if_neg (by omega), hlen, hpos (by simp), charsBefore_paras_append]
        simp only
        omega
      · exact hp5 hl
    · rw [nb5, n2]; simp only [List.length_cons]; omega

/-- The frames of the cells get the frame of the table as parent. -/
theorem adoptCells_spec (a : Nat) (cs : List SCell) : ∀ {s : Store}, (cs.map SCell.frame).Nodup →
    (∀ c ∈ cs, s.frames c.frame = some (freshFrame c)) →
    ∃ fs : IdMap Frame, adoptCells a (cs.map SCell.frame) s = { s with frames := fs } ∧
      (∀ c ∈ cs, fs c.frame = some { freshFrame c with parentFrame := some a }) ∧
      (∀ i, i ∉ cs.map SCell.frame → fs i = s.frames i) := by
  induction cs with
  | nil => intro s _ _; exact ⟨s.frames, rfl, by simp, fun _ _ => rfl⟩
  | cons c cs ih =>
    intro s hnd hf
    simp only [List.map_cons, List.nodup_cons] at hnd
    have hne : ∀ q ∈ cs, q.frame ≠ c.frame := by
      intro q hq e; exact hnd.1 (List.mem_map.mpr ⟨q, hq, e⟩)
    have hc := hf c (by simp)
    obtain ⟨fs, e, h1, h2⟩ := ih (s := s.updateFrameRel { freshFrame c with parentFrame := some a }) hnd.2 (by
      intro q hq
      unfold Store.updateFrameRel
      simp only [IdMap.insert_get]
      rw [if_neg (by show ¬ q.frame = c.frame; exact hne q hq)]
      exact hf q (List.mem_cons_of_mem _ hq))
    refine ⟨fs, ?_, ?_, ?_⟩
    · unfold adoptCells at e ⊢
      rw [List.map_cons, List.foldl_cons]
      simp only [hc]
      rw [e]; rfl
    · intro q hq
      rcases List.mem_cons.mp hq with rfl | hq
      · rw [h2 _ hnd.1]
        unfold Store.updateFrameRel
        simp only [freshFrame, IdMap.insert_get, if_true]
      · exact h1 q hq
    · intro i hi
      simp only [List.map_cons, List.mem_cons, not_or] at hi
      rw [h2 i hi.2]
      unfold Store.updateFrameRel
      simp only [IdMap.insert_get]
      rw [if_neg (by simpa [freshFrame] using hi.1)]

end Verif

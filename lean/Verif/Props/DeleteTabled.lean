import Verif.Lemmas.TableClearAll
import Verif.Props.DeleteCells
import Verif.Props.Tables
/-
C69 and C93: deletion in documents in which no paragraph follows a table.
-/
namespace Verif

variable {s : Store} {d : Document} {f : Nat} {P : List SPara} {T : List STable}

/-- **C69 (deleting inside a paragraph, partial: no paragraph follows a table).** In a document of paragraphs followed by
tables, deleting from the `i`-th to the `j`-th character of any paragraph, in a cell or in front of the tables, in whichever direction the
selection was made, removes exactly these characters and reports them.  Every other paragraph, the arrangement of
paragraphs, tables and cells, and the lists stay, the number of characters is right again, the caret is where the text was,
and undo brings the content back.  (Where a paragraph follows a table this fails, `C69_delete_fails`.) -/
theorem C69_delete_partial (h : Tabled s d f (P.map .para ++ T.map .table)) (hT : T ≠ []) {n i j : Nat} {p : SPara}
    (hp : (flowParas (P.map .para ++ T.map .table))[n]? = some p) (hij : i < j) (hj : j ≤ p.chars.length) {position anchor : Int}
    (hmin : min position anchor = (paraStart (flowParas (P.map .para ++ T.map .table)) n + i : Nat))
    (hmax : max position anchor = (paraStart (flowParas (P.map .para ++ T.map .table)) n + j : Nat)) :
    ∃ s' items' snap,
      s.deleteSelection position anchor = some (s', ⟨min position anchor, (p.text.drop i).take (j - i)⟩, snap) ∧
      Tabled s' { d with characterCount := d.characterCount - ((j - i : Nat) : Int) } f items' ∧
      flowParas items' = (flowParas (P.map .para ++ T.map .table)).set n { p with chars := p.chars.take i ++ p.chars.drop j } ∧
      arrangement items' = arrangement (P.map .para ++ T.map .table) ∧
      s'.lists = s.lists ∧ SameContent (s'.restoreUndo snap) s := by
  obtain ⟨X, Y, e, rfl⟩ : ∃ X Y, flowParas (P.map SItem.para ++ T.map .table) = X ++ p :: Y ∧ n = X.length := by
    refine ⟨(flowParas (P.map SItem.para ++ T.map .table)).take n, (flowParas (P.map SItem.para ++ T.map .table)).drop (n + 1), ?_, ?_⟩
    · obtain ⟨hn, hpe⟩ := List.getElem?_eq_some_iff.mp hp
      rw [← hpe, ← List.drop_eq_getElem_cons hn, List.take_append_drop]
    · have := (List.getElem?_eq_some_iff.mp hp).1
      rw [List.length_take]; omega
  have hc : p.chars = p.chars.take i ++ (p.chars.drop i).take (j - i) ++ p.chars.drop j := by
    rw [List.append_assoc]
    have h1 : p.chars.drop j = (p.chars.drop i).drop (j - i) := by rw [List.drop_drop]; congr 1; omega
    rw [h1, List.take_append_drop, List.take_append_drop]
  have hl1 : (p.chars.take i).length = i := by rw [List.length_take]; omega
  have hl2 : ((p.chars.drop i).take (j - i)).length = j - i := by rw [List.length_take, List.length_drop]; omega
  rw [e, paraStart_split] at hmin hmax
  obtain ⟨s', g1, g2, g3, g4⟩ := h.deleteInside hT e hc (by intro he; rw [he] at hl2; simp at hl2; omega) (position := position) (anchor := anchor)
    (by rw [hmin, hl1]) (by rw [hmax, hl1, hl2]; congr 1; omega)
  rw [hl2] at g2
  obtain ⟨L, hH, _⟩ := h.content
  have hn := hH.ids_nodup
  refine ⟨s', _, _, ?_, g2, ?_, ?_, g3.lists, (C27_undo_snapshot s s').1⟩
  · rw [C93_elsewhere g1]
    simp [SPara.text, List.map_take, List.map_drop]
  · rw [flowParas_on]
    have h5 := map_replace (p := p) (by rw [← e]; exact hn) { p with chars := p.chars.take i ++ p.chars.drop j }
    rw [e]
    rw [List.set_append_right _ _ (by omega), Nat.sub_self, List.set_cons_zero, ← h5]
    apply List.map_congr_left
    intro q hq
    by_cases hq' : q.id = p.id
    · rw [if_pos hq', if_pos hq', hH.unique (by rw [e]; simp) (by rw [e]; exact hq) hq']
    · rw [if_neg hq', if_neg hq']
  · unfold arrangement
    rw [List.map_map]
    apply List.map_congr_left
    intro x _
    have key : ∀ q : SPara, ({ (if q.id = p.id then { q with chars := p.chars.take i ++ p.chars.drop j } else q : SPara) with chars := [] } : SPara) =
        { q with chars := [] } := by
      intro q; split <;> rfl
    cases x with
    | para q => simp only [Function.comp, SItem.on, key]
    | table t => simp only [Function.comp, SItem.on, List.map_map, Function.comp_def, key]

theorem cells_one : ∀ (cs : List SCell), (∀ c ∈ cs, c.paras.length = 1) → ∃ xs : List (Nat × SPara),
    xs.map Prod.fst = cs.map SCell.frame ∧ xs.map Prod.snd = cs.flatMap SCell.paras ∧
    ∀ x ∈ xs, ∃ c ∈ cs, c.frame = x.1 ∧ c.paras = [x.2]
  | [], _ => ⟨[], rfl, rfl, by simp⟩
  | c :: cs, h => by
    obtain ⟨xs, h1, h2, h3⟩ := cells_one cs fun c hc => h c (by simp [hc])
    obtain ⟨p, hp⟩ := List.length_eq_one_iff.mp (h c (by simp))
    refine ⟨(c.frame, p) :: xs, by simp [h1], by simp [h2, hp], ?_⟩
    intro x hx
    rcases List.mem_cons.mp hx with rfl | hx
    · exact ⟨c, by simp, rfl, hp⟩
    · obtain ⟨c', k1, k2⟩ := h3 x hx
      exact ⟨c', by simp [k1], k2⟩

theorem cellFrames_nodup {items : List SItem} (h : (tableFrames items).Nodup) : ((cellsOf items).map SCell.frame).Nodup := by
  refine List.Sublist.nodup ?_ h
  unfold cellsOf tableFrames
  generalize tablesOf items = T
  induction T with
  | nil => simp
  | cons t T ih =>
    simp only [List.flatMap_cons, List.map_append]
    exact List.Sublist.append (List.sublist_cons_self _ _) ih

theorem charTotal_emptied {X M Y : List SPara} (hn : ((X ++ M ++ Y).map SPara.id).Nodup) :
    charTotal ((X ++ M ++ Y).map (emptied (M.map SPara.id))) + charTotal M = charTotal (X ++ M ++ Y) := by
  have hz : ∀ l : List SPara, (∀ q ∈ l, q.id ∈ M.map SPara.id) → ((l.map (emptied (M.map SPara.id))).map fun p => p.chars.length).sum = 0 := by
    intro l hl
    induction l with
    | nil => rfl
    | cons q l ih =>
      rw [List.map_cons, List.map_cons, List.sum_cons, ih fun r hr => hl r (by simp [hr])]
      unfold emptied
      rw [if_pos (hl q (by simp))]; rfl
  have hs : ∀ l : List SPara, (∀ q ∈ l, q.id ∉ M.map SPara.id) → l.map (emptied (M.map SPara.id)) = l := by
    intro l hl
    rw [List.map_congr_left (g := id), List.map_id]
    intro q hq
    unfold emptied
    rw [if_neg (hl q hq)]; rfl
  rw [List.map_append, List.map_append, List.nodup_append, List.nodup_append] at hn
  obtain ⟨⟨_, _, n1⟩, _, n2⟩ := hn
  unfold charTotal
  rw [List.map_append (f := emptied _), List.map_append (f := emptied _), hs X, hs Y]
  · simp only [List.map_append, List.sum_append]
    rw [hz M fun q hq => List.mem_map_of_mem hq]; omega
  · intro q hq hm
    exact n2 q.id (List.mem_append_right _ hm) q.id (List.mem_map_of_mem hq) rfl
  · intro q hq hm
    exact n1 q.id (List.mem_map_of_mem hq) q.id hm rfl

/-- **C93 (cells of a table, partial).** Let no paragraph follow a table, and let a selection start anywhere in the cell `c`
and end anywhere in the cell `c'`, `c`, the cells `cs` in between in reading order, and `c'` having one paragraph each.  If every
table keeps a cell that is not among them, all lists are in use, and the last of the stored text is not a paragraph that is or becomes
empty, then deleting the selection empties the paragraphs of these cells and changes nothing else: every other paragraph, the
arrangement of paragraphs, tables and cells and the lists stay, the document counts its characters and paragraphs right if it
did so before, and undo brings the content back.

Missing: the stored positions are not said to be right, they are not updated (`C93_next_deletion_fails`); without the conditions see
`C93_behind_fails`, `C93_table_fails`, `C93_next_typing_fails`; the deleted text is reported as empty. -/
theorem C93_cells_partial (h : Tabled s d f (P.map .para ++ T.map .table)) {A cs B : List SCell} {c c' : SCell}
    (hcs : cellsOf (P.map .para ++ T.map .table) = A ++ (c :: cs ++ [c']) ++ B)
    (hone : ∀ x ∈ c :: cs ++ [c'], x.paras.length = 1)
    (hkeep : ∀ t ∈ T, ∃ x ∈ t.cells, x ∉ c :: cs ++ [c'])
    (hlists : ∀ l ∈ d.lists, ∃ p ∈ flowParas (P.map .para ++ T.map .table), p.shape.list = some l)
    (hend : EndsOutside s (flowParas (P.map .para ++ T.map .table)) (((c :: cs ++ [c']).flatMap SCell.paras).map SPara.id))
    {position anchor : Int} {k k' : Nat} (hk : ∀ p ∈ c.paras, k ≤ p.chars.length) (hk' : ∀ p ∈ c'.paras, k' ≤ p.chars.length)
    (hmin : min position anchor = (paraStart (flowParas (P.map .para ++ T.map .table))
      (P.length + (A.flatMap SCell.paras).length) + k : Nat))
    (hmax : max position anchor = (paraStart (flowParas (P.map .para ++ T.map .table))
      (P.length + ((A ++ c :: cs).flatMap SCell.paras).length) + k' : Nat)) :
    ∃ s' d' snap, s.deleteSelection position anchor = some (s', ⟨min position anchor, []⟩, snap) ∧
      Arranged s' d' f ((P.map SItem.para ++ T.map SItem.table).map
        (SItem.on (emptied (((c :: cs ++ [c']).flatMap SCell.paras).map SPara.id)))) ∧
      d'.id = d.id ∧ (Counted d (flowParas (P.map .para ++ T.map .table)) →
        Counted d' (flowParas ((P.map SItem.para ++ T.map SItem.table).map
          (SItem.on (emptied (((c :: cs ++ [c']).flatMap SCell.paras).map SPara.id)))))) ∧
      s'.lists = s.lists ∧ SameContent (s'.restoreUndo snap) s := by
  have hcells : cellsOf (P.map SItem.para ++ T.map .table) = T.flatMap STable.cells := by unfold cellsOf; rw [tablesOf_trailing]
  have hT : T ≠ [] := by
    rintro rfl
    rw [hcells] at hcs; simp at hcs
  obtain ⟨x, x1, x2, x3⟩ := cells_one [c] fun z hz => hone z (by simp at hz ⊢; simp [hz])
  obtain ⟨zs, z1, z2, z3⟩ := cells_one cs fun z hz => hone z (by simp [hz])
  obtain ⟨y, y1, y2, y3⟩ := cells_one [c'] fun z hz => hone z (by simp at hz ⊢; simp [hz])
  obtain ⟨x, rfl⟩ : ∃ a, x = [a] := List.length_eq_one_iff.mp (by simpa using congrArg List.length x1)
  obtain ⟨y, rfl⟩ : ∃ a, y = [a] := List.length_eq_one_iff.mp (by simpa using congrArg List.length y1)
  have hfst : (x :: zs ++ [y]).map Prod.fst = (c :: cs ++ [c']).map SCell.frame := by
    simp only [List.cons_append, List.map_cons, List.map_append, List.map_nil, List.cons.injEq] at x1 y1 z1 ⊢
    rw [z1]; simp [x1.1, y1.1]
  have hsnd : (x :: zs ++ [y]).map Prod.snd = (c :: cs ++ [c']).flatMap SCell.paras := by
    simp only [List.flatMap_cons, List.flatMap_nil, List.append_nil, List.map_cons, List.map_nil] at x2 y2
    simp only [List.cons_append, List.map_cons, List.map_append, List.map_nil, List.flatMap_cons, List.flatMap_append, List.flatMap_nil]
    rw [← x2, ← y2, z2]; simp
  have hsndL : (x :: zs).map Prod.snd = (c :: cs).flatMap SCell.paras := by
    simp only [List.flatMap_cons, List.flatMap_nil, List.append_nil, List.map_cons, List.map_nil] at x2
    simp only [List.map_cons, List.flatMap_cons]
    rw [← x2, z2]; simp
  have hids : ((x :: zs ++ [y]).map fun x => x.2.id) = ((c :: cs ++ [c']).flatMap SCell.paras).map SPara.id := by
    rw [← hsnd, List.map_map]; rfl
  have e : flowParas (P.map SItem.para ++ T.map .table) = P ++ A.flatMap SCell.paras ++ (x :: zs ++ [y]).map Prod.snd ++ B.flatMap SCell.paras := by
    rw [flowParas_trailing, ← List.flatMap_assoc, ← hcells, hcs, hsnd, List.flatMap_append, List.flatMap_append]
    simp
  have hmem : ∀ z ∈ A ++ (c :: cs ++ [c']) ++ B, ∃ t ∈ T, z ∈ t.cells := by
    intro z hz
    rw [← hcs, hcells] at hz
    obtain ⟨t, ht, hz⟩ := List.mem_flatMap.mp hz
    exact ⟨t, ht, hz⟩
  have hfn := cellFrames_nodup (List.nodup_cons.mp h.distinct.1).2
  have hx : ∀ z ∈ x :: zs ++ [y], ∃ w ∈ c :: cs ++ [c'], w.frame = z.1 ∧ w.paras = [z.2] := by
    intro z hz
    simp only [List.cons_append, List.mem_cons, List.mem_append, List.not_mem_nil, or_false] at hz
    rcases hz with rfl | hz | rfl
    · obtain ⟨w, hw, hw'⟩ := x3 z (by simp)
      exact ⟨w, by simp at hw; simp [hw], hw'⟩
    · obtain ⟨w, hw, hw'⟩ := z3 z hz
      exact ⟨w, by simp [hw], hw'⟩
    · obtain ⟨w, hw, hw'⟩ := y3 z (by simp)
      exact ⟨w, by simp at hw; simp [hw], hw'⟩
  have hP1 : paraStart (flowParas (P.map SItem.para ++ T.map .table)) (P.length + (A.flatMap SCell.paras).length) =
      charsBefore (paras (P ++ A.flatMap SCell.paras)) := by
    rw [e, List.append_assoc (P ++ _), ← List.length_append, paraStart_split]
  have hP2 : paraStart (flowParas (P.map SItem.para ++ T.map .table)) (P.length + ((A ++ c :: cs).flatMap SCell.paras).length) =
      charsBefore (paras (P ++ A.flatMap SCell.paras ++ (x :: zs).map Prod.snd)) := by
    rw [e, ← List.length_append, List.flatMap_append, ← hsndL, ← List.append_assoc P]
    rw [List.map_append, ← List.append_assoc _ _ (List.map Prod.snd [y]), List.append_assoc (_ ++ _) (List.map Prod.snd [y]), paraStart_split]
  rw [hP1] at hmin
  rw [hP2] at hmax
  have hkx : k ≤ x.2.chars.length := by
    apply hk
    obtain ⟨w, hw, _, hw'⟩ := x3 x (by simp)
    simp only [List.mem_singleton] at hw
    subst hw
    rw [hw']; simp
  have hky : k' ≤ y.2.chars.length := by
    apply hk'
    obtain ⟨w, hw, _, hw'⟩ := y3 y (by simp)
    simp only [List.mem_singleton] at hw
    subst hw
    rw [hw']; simp
  obtain ⟨s', g1, g2, _, g4, _⟩ := h.deleteCells hT e rfl
    (by
      intro q hq
      rw [hsnd, ← List.flatMap_append, ← List.flatMap_append] at hq
      obtain ⟨w, hw, hqw⟩ := List.mem_flatMap.mp hq
      obtain ⟨t, ht, hwt⟩ := hmem w hw
      exact ⟨t, ht, w, hwt, hqw⟩)
    (by
      intro z hz
      obtain ⟨w, hw, w1, w2⟩ := hx z hz
      obtain ⟨t, ht, hwt⟩ := hmem w (by simp only [List.mem_append]; exact .inl (.inr (List.mem_append.mp hw)))
      exact ⟨t, by rw [tablesOf_trailing]; exact ht, w, hwt, w1, w2⟩)
    (by
      rw [hfst]
      rw [hcs, List.map_append, List.map_append, List.nodup_append, List.nodup_append] at hfn
      exact hfn.1.2.1)
    (by
      intro t ht
      obtain ⟨w, hw, hw'⟩ := hkeep t ht
      refine ⟨w, hw, ?_⟩
      rw [hfst]
      intro hm
      obtain ⟨w2, hw2, hwe⟩ := List.mem_map.mp hm
      have m1 : w ∈ cellsOf (P.map SItem.para ++ T.map .table) := by rw [hcells]; exact List.mem_flatMap.mpr ⟨t, ht, hw⟩
      have m2 : w2 ∈ cellsOf (P.map SItem.para ++ T.map .table) := by
        rw [hcs]; simp only [List.mem_append]; exact .inl (.inr (List.mem_append.mp hw2))
      have := eq_of_nodup_map hfn m2 m1 hwe
      exact hw' (this ▸ hw2))
    hlists (by rw [hids]; exact hend) hkx hky hmin hmax
  rw [hids] at g2
  refine ⟨s', _, _, g1, g2, rfl, ?_, g4.lists, (C27_undo_snapshot s s').1⟩
  obtain ⟨L, hH, _⟩ := h.content
  have hn := hH.ids_nodup
  rw [e] at hn
  have ht := charTotal_emptied hn
  rw [← e, hsnd] at ht
  rintro ⟨c1, c2⟩
  constructor
  · dsimp only
    rw [flowParas_on, c1]
    have : ((x :: zs ++ [y]).map fun x => x.2.chars.length).sum = charTotal ((c :: cs ++ [c']).flatMap SCell.paras) := by
      rw [← hsnd]; unfold charTotal; rw [List.map_map]; rfl
    rw [this]
    omega
  · dsimp only
    rw [flowParas_on, List.length_map]

/-- The paragraph "ab" and a table of one row with the cells "x", "y", "z", as the commands make it. -/
theorem rowSample_tabled : ∃ s d t, rowSample ['z'] = some s ∧ Tabled s d 2 ([⟨2, [('a', none), ('b', none)], {}⟩].map SItem.para ++ [t].map SItem.table) ∧
    t.cells.map SCell.paras = [[⟨3, [('x', none)], {}⟩], [⟨4, [('y', none)], {}⟩], [⟨5, [('z', none)], {}⟩]] ∧ d.lists = [] ∧
    s.blockOffsets.entries.getLast?.map Prod.fst = some (.block 5) ∧
    Counted d (flowParas ([⟨2, [('a', none), ('b', none)], {}⟩].map SItem.para ++ [t].map SItem.table)) := by
  obtain ⟨s, d, e0, hd1, h, _⟩ := import_tabled "ab".toList
  have hb : s.next "block" = 3 := by
    have : (Store.newStore.bind fun s => s.importPlainText "ab".toList).map (fun s => s.next "block") = some 3 := by decide +kernel
    rw [e0] at this; simpa using this
  have hd : d.lists = [] ∧ d.characterCount = 2 ∧ d.blockCount = 1 := by
    have : (Store.newStore.bind fun s => s.importPlainText "ab".toList).bind (fun s => (s.documents 1).map fun d => (d.lists, d.characterCount, d.blockCount)) =
        some ([], 2, 1) := by decide +kernel
    rw [e0, Option.bind_some, ← hd1, h.document] at this
    simpa using this
  have e : (linesFrom 2 (Store.splitLines (unixText "ab".toList))).map SItem.para =
      [] ++ .para ⟨2, [('a', none), ('b', none)], {}⟩ :: [] := by rfl
  rw [e] at h
  obtain ⟨s1, h1, h2, _⟩ := h.insertTable_top (a := [('a', none), ('b', none)]) (b := []) (position := 2) (anchor := 2)
    (rows := 1) (columns := 3) rfl (by decide) (by decide) (by decide)
  obtain ⟨t, ht, htt⟩ : ∃ t : STable, t.cells.map SCell.paras = [[⟨3, [], {}⟩], [⟨4, [], {}⟩], [⟨5, [], {}⟩]] ∧ t = madeTable s 1 3 :=
    ⟨_, by unfold madeTable; rw [hb]; rfl, rfl⟩
  rw [if_neg (by simp), ← htt] at h2
  have hf : ∀ t : STable, flowParas ([] ++ [SItem.para ⟨2, [('a', none), ('b', none)], {}⟩, SItem.table t]) =
      ⟨2, [('a', none), ('b', none)], {}⟩ :: (t.cells.map SCell.paras).flatten := by
    intro t; simp [flowParas, SItem.paras, List.flatMap_def]
  have hon : ∀ (g : SPara → SPara) (t : STable), (t.on g).cells.map SCell.paras = (t.cells.map SCell.paras).map fun l => l.map g := by
    intro g t; simp [STable.on, Function.comp_def]
  have hmap : ∀ (g : SPara → SPara) (t : STable), g ⟨2, [('a', none), ('b', none)], {}⟩ = ⟨2, [('a', none), ('b', none)], {}⟩ →
      ([] ++ [SItem.para ⟨2, [('a', none), ('b', none)], {}⟩, SItem.table t]).map (SItem.on g) =
      [] ++ [SItem.para ⟨2, [('a', none), ('b', none)], {}⟩, SItem.table (t.on g)] := by
    intro g t hg; simp [SItem.on, STable.on, hg]
  obtain ⟨s2, k1, k2, _⟩ := h2.insertSimple (dto := ⟨3, 3, ['x']⟩) (p := ⟨3, [], {}⟩) (X := [⟨2, [('a', none), ('b', none)], {}⟩])
    (Y := [⟨4, [], {}⟩, ⟨5, [], {}⟩]) (a := []) (b := []) (by rw [hf, ht]; rfl) rfl rfl
  obtain ⟨t2, ht2, htt2⟩ : ∃ t2 : STable, t2.cells.map SCell.paras = [[⟨3, [('x', none)], {}⟩], [⟨4, [], {}⟩], [⟨5, [], {}⟩]] ∧
    t2 = t.on fun q => if q.id = 3 then { q with chars := [] ++ styled ['x'] (inheritFmt []) ++ [] } else q := ⟨_, by rw [hon, ht]; rfl, rfl⟩
  rw [hmap _ _ rfl, ← htt2] at k2
  obtain ⟨s3, l1, l2, _⟩ := k2.insertSimple (dto := ⟨5, 5, ['y']⟩) (p := ⟨4, [], {}⟩) (X := [⟨2, [('a', none), ('b', none)], {}⟩, ⟨3, [('x', none)], {}⟩])
    (Y := [⟨5, [], {}⟩]) (a := []) (b := []) (by rw [hf, ht2]; rfl) rfl rfl
  obtain ⟨t3, ht3, htt3⟩ : ∃ t3 : STable, t3.cells.map SCell.paras = [[⟨3, [('x', none)], {}⟩], [⟨4, [('y', none)], {}⟩], [⟨5, [], {}⟩]] ∧
    t3 = t2.on fun q => if q.id = 4 then { q with chars := [] ++ styled ['y'] (inheritFmt []) ++ [] } else q := ⟨_, by rw [hon, ht2]; rfl, rfl⟩
  rw [hmap _ _ rfl, ← htt3] at l2
  obtain ⟨s4, m1, m2, _⟩ := l2.insertSimple (dto := ⟨7, 7, ['z']⟩) (p := ⟨5, [], {}⟩)
    (X := [⟨2, [('a', none), ('b', none)], {}⟩, ⟨3, [('x', none)], {}⟩, ⟨4, [('y', none)], {}⟩])
    (Y := []) (a := []) (b := []) (by rw [hf, ht3]; rfl) rfl rfl
  obtain ⟨t4, ht4, htt4⟩ : ∃ t4 : STable, t4.cells.map SCell.paras = [[⟨3, [('x', none)], {}⟩], [⟨4, [('y', none)], {}⟩], [⟨5, [('z', none)], {}⟩]] ∧
    t4 = t3.on fun q => if q.id = 5 then { q with chars := [] ++ styled ['z'] (inheritFmt []) ++ [] } else q := ⟨_, by rw [hon, ht3]; rfl, rfl⟩
  rw [hmap _ _ rfl, ← htt4] at m2
  have hrow : rowSample ['z'] = some s4 := by
    rw [Option.bind_eq_some_iff] at e0
    obtain ⟨s0, e1, e2⟩ := e0
    unfold rowSample
    rw [e1, Option.bind_some, e2, Option.bind_some, h1, Option.bind_some]
    unfold Store.insertText
    rw [if_neg (by simp), k1, Option.bind_some]
    dsimp only
    rw [if_neg (by simp), l1, Option.bind_some]
    dsimp only
    rw [if_neg (by simp), m1]
    rfl
  refine ⟨s4, _, t4, hrow, m2, ht4, hd.1, ?_, ?_, ?_⟩
  · have : (rowSample ['z']).bind (fun s => s.blockOffsets.entries.getLast?.map Prod.fst) = some (.block 5) := by decide +kernel
    rw [hrow] at this; exact this
  · dsimp only
    rw [hd.2.1, show flowParas (_ ++ [t4].map SItem.table) = _ from hf t4, ht4]; rfl
  · dsimp only
    rw [hd.2.2, show flowParas (_ ++ [t4].map SItem.table) = _ from hf t4, ht4]; rfl

/-- The cells "x" and "y" of a row of three are emptied, from the end of the first to the start of the second; and the "y" alone is deleted. -/
example : ∃ s d t s' d' s1 items1, rowSample ['z'] = some s ∧ Tabled s d 2 ([⟨2, [('a', none), ('b', none)], {}⟩].map SItem.para ++ [t].map SItem.table) ∧
    (s.deleteSelection 4 5).map (fun r => r.1) = some s' ∧
    Arranged s' d' 2 (([⟨2, [('a', none), ('b', none)], {}⟩].map SItem.para ++ [t].map SItem.table).map (SItem.on (emptied [3, 4]))) ∧
    (s.deleteSelection 6 5).map (fun r => (r.1, r.2.1)) = some (s1, ⟨5, ['y']⟩) ∧
    (flowParas items1).map SPara.text = [['a', 'b'], ['x'], [], ['z']] := by
  obtain ⟨s, d, t, e, h, ht, hl, hlast, hcount⟩ := rowSample_tabled
  have hf : flowParas ([⟨2, [('a', none), ('b', none)], {}⟩].map SItem.para ++ [t].map SItem.table) =
      ⟨2, [('a', none), ('b', none)], {}⟩ :: (t.cells.map SCell.paras).flatten := by
    simp [flowParas, SItem.paras, List.flatMap_def]
  rw [ht] at hf
  obtain ⟨c1, c2, c3, hc, p1, p2, p3⟩ : ∃ c1 c2 c3, t.cells = [c1, c2, c3] ∧ c1.paras = [⟨3, [('x', none)], {}⟩] ∧
      c2.paras = [⟨4, [('y', none)], {}⟩] ∧ c3.paras = [⟨5, [('z', none)], {}⟩] := by
    rcases hcl : t.cells with _ | ⟨a, _ | ⟨b, _ | ⟨c, _ | ⟨x, l⟩⟩⟩⟩ <;> rw [hcl] at ht <;> simp at ht
    exact ⟨a, b, c, rfl, ht⟩
  have hcells : cellsOf ([⟨2, [('a', none), ('b', none)], {}⟩].map SItem.para ++ [t].map SItem.table) = [] ++ (c1 :: [] ++ [c2]) ++ [c3] := by
    simp [cellsOf, tablesOf, hc]
  obtain ⟨s', d', snap, g1, g2, _⟩ := C93_cells_partial h hcells (by simp [p1, p2])
    (by
      intro x hx
      simp only [List.mem_singleton] at hx
      subst hx
      refine ⟨c3, by simp [hc], ?_⟩
      intro hm
      simp only [List.cons_append, List.nil_append, List.mem_cons, List.not_mem_nil, or_false] at hm
      rcases hm with rfl | rfl
      · rw [p1] at p3; simp at p3
      · rw [p2] at p3; simp at p3)
    (by rw [hl]; simp)
    (by
      intro q hq hm
      rw [hlast] at hm
      rw [hf] at hq
      simp only [Option.some.injEq, Marker.block.injEq] at hm
      simp only [List.flatten_cons, List.flatten_nil, List.append_nil, List.cons_append, List.nil_append, List.mem_cons, List.not_mem_nil, or_false] at hq
      rcases hq with rfl | rfl | rfl | rfl <;> simp [p1, p2] at hm ⊢)
    (k := 1) (k' := 0) (position := 4) (anchor := 5) (by simp [p1]) (by simp) (by rw [hf]; rfl) (by rw [hf]; simp [p1]; rfl)
  obtain ⟨s1, items1, snap1, k1, k2, k3, _⟩ := C69_delete_partial h (by simp) (n := 2) (i := 0) (j := 1) (p := ⟨4, [('y', none)], {}⟩)
    (position := 6) (anchor := 5) (by rw [hf]; rfl) (by decide) (by decide) (by rw [hf]; rfl) (by rw [hf]; rfl)
  refine ⟨s, d, t, s', d', s1, items1, e, h, by rw [g1]; rfl, ?_, by rw [k1]; rfl, by rw [k3, hf]; rfl⟩
  simpa [p1, p2] using g2

end Verif

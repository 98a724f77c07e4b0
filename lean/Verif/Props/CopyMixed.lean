import Verif.Lemmas.CopyMixed
import Verif.Props.TableCopy
/- C105: copying across table cells. -/
namespace Verif
open Store
variable {s : Store} {d : Document} {f : Nat} {items : List SItem}

theorem touched_subset {lo hi : Nat} (ps : List SPara) (n : Nat) : ∀ p ∈ touched lo hi n ps, p ∈ ps := by
  induction ps generalizing n with
  | nil => intro p hp; simp [touched] at hp
  | cons x ps ih =>
    intro p hp
    rw [touched] at hp
    split at hp
    · exact List.mem_cons_of_mem _ (ih _ p hp)
    · rcases List.mem_cons.mp hp with rfl | hp
      · simp
      · exact List.mem_cons_of_mem _ (ih _ p hp)

theorem Arranged.homes_apart (h : Arranged s d f items) {p q : SPara} (hp : p ∈ flowParas items) (hq : q ∈ flowParas items)
    (ha : Elsewhere items p q) : s.cellFrameOf d.id p.id ≠ s.cellFrameOf d.id q.id := by
  have key : ∀ x ∈ flowParas items, x ∈ topParas items ∨ ∃ t ∈ tablesOf items, ∃ c ∈ t.cells, x ∈ c.paras := fun x hx => by
    rcases List.mem_append.mp ((flow_perm items).mem_iff.mp hx) with hx | hx
    · exact .inl hx
    · obtain ⟨c, hc, hx⟩ := List.mem_flatMap.mp hx
      obtain ⟨t, ht, hc⟩ := mem_cellsOf.mp hc
      exact .inr ⟨t, ht, c, hc, hx⟩
  rcases key p hp with hp | ⟨t, ht, c, hc, hp⟩ <;> rcases key q hq with hq | ⟨u, hu, x, hx, hq⟩
  · exact absurd ⟨hp, hq⟩ ha.1
  · rw [h.cellFrameOf_top hp, h.cellFrameOf_cell hu hx hq]; simp
  · rw [h.cellFrameOf_cell ht hc hp, h.cellFrameOf_top hq]; simp
  · rw [h.cellFrameOf_cell ht hc hp, h.cellFrameOf_cell hu hx hq]
    intro e
    have e : c.frame = x.frame := by simpa using e
    have hn := cellFrames_distinct (List.nodup_cons.mp h.distinct.1).2
    have := eq_of_nodup_map hn (mem_cellsOf.mpr ⟨t, ht, hc⟩) (mem_cellsOf.mpr ⟨u, hu, hx⟩) e
    subst this
    exact ha.2 t ht c hc ⟨hp, hq⟩

theorem Arranged.homes_listed (h : Arranged s d f items) {lo hi : Nat} (w : SPara → Bool) :
    ∀ (qs : List SPara) (n : Nat), (∀ x ∈ qs, x ∈ flowParas items) →
    (qs.map fun p => p.entity (s.storedPos p)) = placed n qs →
    ∃ l, mapOpt (fun b : Block => (blockCharLength s.text b.id).map fun (len : Nat) =>
      if b.documentPosition + len < (lo : Int) ∨ b.documentPosition ≥ (hi : Int) then []
      else [s.cellFrameOf d.id b.id]) ((doubled w qs).map fun p => p.entity (s.storedPos p)) = some l ∧
      ∀ p ∈ touched lo hi n qs, s.cellFrameOf d.id p.id ∈ l.flatten := by
  obtain ⟨L, hL, _⟩ := h.content
  intro qs
  induction qs with
  | nil => intro n _ _; exact ⟨[], rfl, by simp [touched]⟩
  | cons x qs ih =>
    intro n hq hst
    have e1 : (n : Int) + ((x.text.length : Nat) + 1) = ((n + x.chars.length + 1 : Nat) : Int) := by
      simp only [SPara.text_length]; push_cast; omega
    rw [List.map_cons, placed, e1, List.cons.injEq] at hst
    obtain ⟨l, h1, h2⟩ := ih (n + x.chars.length + 1) (fun y hy => hq y (by simp [hy])) hst.2
    obtain ⟨y, y1, y2⟩ : ∃ y, ((blockCharLength s.text (x.entity (s.storedPos x)).id).map fun (len : Nat) =>
        if (x.entity (s.storedPos x)).documentPosition + len < (lo : Int) ∨ (x.entity (s.storedPos x)).documentPosition ≥ (hi : Int) then []
        else [s.cellFrameOf d.id (x.entity (s.storedPos x)).id]) = some y ∧
        (¬ (n + x.chars.length < lo ∨ hi ≤ n) → s.cellFrameOf d.id x.id ∈ y) := by
      rw [show (x.entity (s.storedPos x)).id = x.id from rfl, hL.charLength (hq x (by simp)), Option.map_some]
      refine ⟨_, rfl, ?_⟩
      have hpos : (x.entity (s.storedPos x)).documentPosition = n := by rw [hst.1]; rfl
      rw [hpos]
      intro hc
      rw [if_neg (by simp only [SPara.text_length]; omega)]
      simp
    have hmem : ∀ p ∈ touched lo hi n (x :: qs), s.cellFrameOf d.id p.id ∈ y ∨ s.cellFrameOf d.id p.id ∈ l.flatten := by
      intro p hp
      rw [touched] at hp
      split at hp
      · exact .inr (h2 p hp)
      · rename_i hc
        rcases List.mem_cons.mp hp with rfl | hp
        · exact .inl (y2 hc)
        · exact .inr (h2 p hp)
    rw [doubled_cons, List.map_append]
    split
    · refine ⟨y :: y :: l, ?_, fun p hp => ?_⟩
      · simp only [List.map_cons, List.map_nil, List.cons_append, List.nil_append, mapOpt]
        rw [y1, h1]; rfl
      · rw [List.flatten_cons, List.flatten_cons, List.mem_append, List.mem_append]
        rcases hmem p hp with h | h
        · exact .inl h
        · exact .inr (.inr h)
    · refine ⟨y :: l, ?_, fun p hp => ?_⟩
      · simp only [List.map_cons, List.map_nil, List.cons_append, List.nil_append, mapOpt]
        rw [y1, h1]; rfl
      · rw [List.flatten_cons, List.mem_append]
        exact hmem p hp

/-- **C105 (partial).** Copying a selection of a document with tables that reaches across cells, or from text into a table, in either
direction: the paragraphs of the fragment are the selected characters, with their formats, of the paragraphs outside the tables that
the selection touches, each once and in order; its tables are the tables the selection touches, each once and in order, with all their
cells, spans, formats and texts, and each says before which paragraph of the fragment it stands; the plain text has the lines of all this
in reading order.  Full statement: also for documents with images or nested tables, and with the lists of paragraphs in cells, which are
dropped (`C105_list_fails`). -/
theorem C105_across_partial (h : Tabled s d f items) (lo hi : Nat) (hlt : lo < hi) {p q : SPara}
    (hp : p ∈ touched lo hi 0 (flowParas items)) (hq : q ∈ touched lo hi 0 (flowParas items)) (ha : Elsewhere items p q) :
    ∃ fbs fts t, s.copyFragment lo hi = some (fbs, fts, t) ∧ s.copyFragment hi lo = some (fbs, fts, t) ∧
      CopiesOf s fbs (textParts (parts lo hi 0 items)) ∧ InTurn TableCopy (tableParts 0 (parts lo hi 0 items)) fts ∧
      t = joinNl ((parts lo hi 0 items).flatMap SPart.lines) := by
  have hA := h.arranged
  obtain ⟨L, hL, _⟩ := h.content
  have hpf := touched_subset _ _ p hp
  have hqf := touched_subset _ _ q hq
  have hdiff := hA.homes_apart hpf hqf ha
  have ht : tablesOf items ≠ [] := by
    intro e
    have hc : cellParas items = [] := by unfold cellParas cellsOf; rw [e]; rfl
    have : ∀ x ∈ flowParas items, x ∈ topParas items := fun x hx => by
      have := (flow_perm items).mem_iff.mp hx
      rwa [hc, List.append_nil] at this
    exact ha.1 ⟨this p hpf, this q hqf⟩
  have hpl := placed_of_seated (h.seated ht)
  have hst : ((flowParas items).map fun p => p.entity (s.storedPos p)) = placed 0 (flowParas items) := by
    apply map_entity_placed
    intro L p R e
    obtain ⟨b, h1, h2⟩ := hpl L p R e
    simp [Store.storedPos, h1, h2]
  have hnat : ∀ q ∈ flowParas items, ∃ n : Nat, s.storedPos q = n := by
    intro q hq
    obtain ⟨A, B, e⟩ := List.append_of_mem hq
    obtain ⟨b, h1, h2⟩ := hpl A q B e
    exact ⟨_, by simp [Store.storedPos, h1, h2]; rfl⟩
  have hne : flowParas items ≠ [] := List.ne_nil_of_mem hpf
  obtain ⟨qs, z, e⟩ : ∃ qs p, flowParas items = qs ++ [p] := ⟨_, _, (List.dropLast_concat_getLast hne).symm⟩
  obtain ⟨pairs, b1, b2⟩ := hA.copyBlocks (h.seated ht).ascends
  have hlastid : (((doubled (inCellOf items) (flowParas items)).map fun p => p.entity (s.storedPos p)).getLast?.map Block.id).getD 0 = z.id := by
    rw [List.getLast?_map, e, doubled_last]; rfl
  have hnd := hL.ids_nodup
  obtain ⟨fbs, fts, D, r1, r2, r3⟩ := h.loop_items lo hi z.id hlt hnat items 0 {} (fun x hx => hx) hL.tables_nodup (by simp) hst (by
    intro A q B e'
    constructor
    · intro hid
      cases hB : B with
      | nil => rfl
      | cons x B' =>
        exfalso
        have hBne : B ≠ [] := by rw [hB]; simp
        have hpB : z ∈ B := by
          have : (flowParas items).getLast? = B.getLast? := by
            rw [e', List.getLast?_append, List.getLast?_cons_of_ne_nil hBne]
            cases hb : B.getLast? with
            | none => exact absurd (List.getLast?_eq_none_iff.mp hb) hBne
            | some y => rfl
          rw [e, List.getLast?_concat] at this
          exact List.mem_of_getLast? this.symm
        rw [e', List.map_append, List.map_cons, List.nodup_append] at hnd
        have := (List.nodup_cons.mp hnd.2.1).1
        exact this (hid ▸ List.mem_map_of_mem hpB)
    · intro hB
      subst hB
      rw [e] at e'
      have := List.append_inj_right' e' rfl
      simp at this
      rw [this])
  obtain ⟨l, c1, c2⟩ := hA.homes_listed (lo := lo) (hi := hi) (inCellOf items) (flowParas items) 0 (fun x hx => hx) hst
  have hcross : s.copyCrosses d.id ((doubled (inCellOf items) (flowParas items)).map fun p => p.entity (s.storedPos p)) lo hi = some true := by
    unfold Store.copyCrosses
    rw [c1, Option.map_some]
    congr 1
    have m1 := c2 p hp
    have m2 := c2 q hq
    cases hl : l.flatten with
    | nil => rw [hl] at m1; simp at m1
    | cons c cs =>
      rw [hl] at m1 m2
      show (cs.any fun c' => decide (c' ≠ c)) = true
      rw [List.any_eq_true]
      rcases List.mem_cons.mp m1 with k1 | k1
      · rcases List.mem_cons.mp m2 with k2 | k2
        · exact absurd (k1.trans k2.symm) hdiff
        · exact ⟨_, k2, by simpa using fun e => hdiff (k1.trans e.symm)⟩
      · by_cases k : s.cellFrameOf d.id p.id = c
        · rcases List.mem_cons.mp m2 with k2 | k2
          · exact absurd (k.trans k2.symm) hdiff
          · exact ⟨_, k2, by simpa using fun e => hdiff (k.trans e.symm)⟩
        · exact ⟨_, k1, by simpa using k⟩
  have hrun : ∀ x y : Int, min x y = (lo : Int) → max x y = (hi : Int) →
      s.copyFragment x y = some (fbs, fts, joinLines ((parts lo hi 0 items).flatMap SPart.lines)) := by
    intro x y hx hy
    unfold Store.copyFragment
    rw [hx, hy]
    simp only []
    rw [if_neg (by omega), h.docIdOf, Option.bind_some, b1, Option.bind_some, b2, hcross, Option.bind_some, hlastid]
    simp only [if_true]
    rw [r1]
    simp
  refine ⟨fbs, fts, _, hrun lo hi (by omega) (by omega), hrun hi lo (by omega) (by omega), r2, r3, ?_⟩
  rw [joinLines_eq]

/-- A selection that stays outside the tables or inside one cell is copied as in C63 and C104, without tables. -/
theorem C105_within {s : Store} {position anchor : Int} {fbs : List FragBlock} {t : List Char}
    (h : s.extractFragment position anchor = some (fbs, t)) (hne : position ≠ anchor) : s.copyFragment position anchor = some (fbs, [], t) := by
  have h0 := h
  unfold Store.extractFragment at h
  unfold Store.copyFragment
  dsimp only at h ⊢
  rw [if_neg (by omega)] at h ⊢
  cases h1 : s.docId with
  | none => rw [h1] at h; cases h
  | some did =>
    rw [h1, Option.bind_some] at h
    rw [Option.bind_some]
    cases h2 : mapOpt (s.blocksBelow (s.frames.len + 1)) (s.docFrames did) with
    | none => rw [h2] at h; cases h
    | some pairs =>
      rw [h2, Option.bind_some] at h
      rw [Option.bind_some]
      cases h3 : s.copyCrosses did (sortByKey Block.documentPosition (s.getBlocks (pairs.flatten.map Prod.fst))) (min position anchor)
        (max position anchor) with
      | none => rw [h3] at h; cases h
      | some cross =>
        rw [h3, Option.bind_some] at h
        rw [Option.bind_some]
        cases cross with
        | true => simp at h
        | false =>
          rw [if_neg (by simp), h0]; rfl

/-- The hypotheses of `C105_across_partial` are met by "ab" with a row of the cells "x", "y", "z" behind it, and the selection of "b" and "x". -/
example : ∃ s d t p q, rowSample ['z'] = some s ∧ Tabled s d 2 ([⟨2, [('a', none), ('b', none)], {}⟩].map SItem.para ++ [t].map SItem.table) ∧
    p ∈ touched 1 4 0 (flowParas ([⟨2, [('a', none), ('b', none)], {}⟩].map SItem.para ++ [t].map SItem.table)) ∧
    q ∈ touched 1 4 0 (flowParas ([⟨2, [('a', none), ('b', none)], {}⟩].map SItem.para ++ [t].map SItem.table)) ∧
    Elsewhere ([⟨2, [('a', none), ('b', none)], {}⟩].map SItem.para ++ [t].map SItem.table) p q ∧
    (parts 1 4 0 ([⟨2, [('a', none), ('b', none)], {}⟩].map SItem.para ++ [t].map SItem.table)).flatMap SPart.lines =
      [['b'], ['x'], ['y'], ['z']] := by
  obtain ⟨s, d, t, e, h, ht, _⟩ := rowSample_tabled
  have hf : flowParas ([⟨2, [('a', none), ('b', none)], {}⟩].map SItem.para ++ [t].map SItem.table) =
      ⟨2, [('a', none), ('b', none)], {}⟩ :: (t.cells.map SCell.paras).flatten := by
    simp [flowParas, SItem.paras, List.flatMap_def]
  rw [ht] at hf
  obtain ⟨c1, c2, c3, hc, p1, p2, p3⟩ : ∃ c1 c2 c3, t.cells = [c1, c2, c3] ∧ c1.paras = [⟨3, [('x', none)], {}⟩] ∧
      c2.paras = [⟨4, [('y', none)], {}⟩] ∧ c3.paras = [⟨5, [('z', none)], {}⟩] := by
    rcases hcl : t.cells with _ | ⟨a, _ | ⟨b, _ | ⟨c, _ | ⟨x, l⟩⟩⟩⟩ <;> rw [hcl] at ht <;> simp at ht
    exact ⟨a, b, c, rfl, ht⟩
  refine ⟨s, d, t, ⟨2, [('a', none), ('b', none)], {}⟩, ⟨3, [('x', none)], {}⟩, e, h, ?_, ?_, ⟨?_, ?_⟩, ?_⟩
  · rw [hf]; simp [touched]
  · rw [hf]; simp [touched]
  · simp [topParas]
  · intro u hu c hcu
    have hu : u = t := by simpa [tablesOf] using hu
    subst hu
    rw [hc] at hcu
    simp only [List.mem_cons, List.not_mem_nil, or_false] at hcu
    rcases hcu with rfl | rfl | rfl
    · rw [p1]; simp
    · rw [p2]; simp
    · rw [p3]; simp
  · simp [parts, SPart.lines, touched, hc, p1, p2, p3, SPara.text]

/-- Concretely: "ab", a table with the cells "xy" and "", "cd"; the selection from "b" to "x" takes the "b" and the whole table. -/
theorem C105_example : ∃ (s s1 s2 : Store) (t : Nat) (pos : Int) (snap : Snapshot),
    (Store.newStore.bind fun s => s.importPlainText "ab\ncd".toList) = some s ∧
    s.insertTable 2 2 1 2 = some (s1, t, pos, snap) ∧ (s1.insertText ⟨3, 3, "xy".toList⟩).map (fun r => r.1) = some s2 ∧
    (s2.copyFragment 4 1).map (fun r => r.1.map FragBlock.text) = some [['b']] ∧
    (s2.copyFragment 4 1).map (fun r => r.2.1.map fun t => (t.rows, t.columns, t.index)) = some [(1, 2, 1)] ∧
    (s2.copyFragment 4 1).map (fun r => r.2.1.map fun t => t.cells.map fun c => c.blocks.map FragBlock.text) = some [[[['x', 'y']], [[]]]] ∧
    (s2.copyFragment 4 1).map (fun r => r.2.2) = some "b\nxy\n".toList := by
  refine ⟨_, _, _, _, _, _, rfl, rfl, rfl, ?_, ?_, ?_, ?_⟩ <;> decide +kernel

/-- **C105 with lists is false.** The paragraphs "ab" and, in the cell of a table, "xy" are items of one list.  Copied together, "ab" keeps
its list; "xy", which is copied whole, loses it. -/
theorem C105_list_fails : ∃ (s s1 s2 s3 s4 : Store) (t : Nat) (pos : Int) (snap : Snapshot),
    (Store.newStore.bind fun s => s.importPlainText "ab\ncd".toList) = some s ∧
    s.insertTable 2 2 1 1 = some (s1, t, pos, snap) ∧ (s1.insertText ⟨3, 3, "xy".toList⟩).map (fun r => r.1) = some s2 ∧
    (s2.createList .disc 0 0).map (fun r => r.1) = some s3 ∧ (s3.addBlockToList 4 1).map (fun r => r.1) = some s4 ∧ s4.listItems 1 = [2, 4] ∧
    (s4.copyFragment 0 5).map (fun r => (r.1.map (fun fb => (fb.text, fb.list.isSome)), r.2.1.map (fun t =>
      t.cells.map fun c => c.blocks.map fun fb => (fb.text, fb.list.isSome)))) =
      some ([("ab".toList, true)], [[[("xy".toList, false)]]]) := by
  refine ⟨_, _, _, _, _, _, _, _, rfl, rfl, rfl, rfl, rfl, ?_, ?_⟩ <;> decide +kernel

end Verif

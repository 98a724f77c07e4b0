import Verif.Model.DeleteCells
import Verif.Model.PlainText
/-
C93: deleting a selection that runs across table cells.
-/
namespace Verif
open Store

/-- **C93 (elsewhere).** Where the selection does not run across cells, the command is the one the theorems about
deletion (C01, C09, C15, C20 and others) speak of. -/
theorem C93_elsewhere {s : Store} {position anchor : Int} {r : Store × DeleteTextResult × Snapshot}
    (h : s.deleteText position anchor = some r) : s.deleteSelection position anchor = some r := by
  unfold Store.deleteText at h
  unfold Store.deleteSelection
  rw [Option.bind_eq_some_iff] at h ⊢
  obtain ⟨did, e0, h⟩ := h
  refine ⟨did, e0, ?_⟩
  split at h
  · rename_i hp; rw [if_pos hp]; exact h
  · rename_i hp
    rw [if_neg hp]
    simp only [Option.bind_eq_some_iff] at h
    obtain ⟨document, e1, fid, e2, ids, e3, root, e4, ⟨blocks, changed⟩, e5, ⟨b1, i1, so⟩, e6, cross, e7, h⟩ := h
    simp only [e1, e2, e3, e4, e5, e6, e7, Option.bind_some]
    split at h
    · cases h
    · rename_i hc
      rw [if_neg hc]
      rw [Option.bind_eq_some_iff] at h
      obtain ⟨⟨b2, i2, eo⟩, e8, h⟩ := h
      simp only [e8, Option.bind_some]
      exact h

/-- "ab", a table of one row with the cells "x", "y", and the paragraphs "cd", "ef", made by the commands. -/
def cellsSample : Option Store :=
  Store.newStore.bind fun s => (s.importPlainText "ab\ncd\nef".toList).bind fun s =>
  (s.insertTable 2 2 1 2).bind fun r => (r.1.insertText ⟨3, 3, ['x']⟩).bind fun r =>
  (r.1.insertText ⟨5, 5, ['y']⟩).map fun r => r.1

/-- "ab" and a table of one row with the cells "x", "y" and `z`, made by the commands. -/
def rowSample (z : List Char) : Option Store :=
  Store.newStore.bind fun s => (s.importPlainText "ab".toList).bind fun s =>
  (s.insertTable 2 2 1 3).bind fun r => (r.1.insertText ⟨3, 3, ['x']⟩).bind fun r =>
  (r.1.insertText ⟨5, 5, ['y']⟩).bind fun r => (r.1.insertText ⟨7, 7, z⟩).map fun r => r.1

/-- The text of each paragraph. -/
def Store.texts (s : Store) : List (Nat × Option (List Char)) := s.blocks.keys.map fun i => (i, blockContent s.text i)

/-- **C93, negative (a paragraph behind the table).** In "ab", a table with the cells "x" and "y", "cd", "ef", let exactly
the text of the two cells be selected (from 3 to 6, or from 3 to 5).  Deleting it also deletes the paragraph "cd" behind the
table, and the deleted text is reported as empty. -/
theorem C93_behind_fails : ∃ s s' : Store, ∃ snap, cellsSample = some s ∧
    s.texts = [(2, some ['a', 'b']), (3, some ['c', 'd']), (4, some ['e', 'f']), (5, some ['x']), (6, some ['y'])] ∧
    [2, 5, 6, 3, 4].map (fun i => (s.blocks i).map fun b => b.documentPosition) = [some 0, some 3, some 5, some 7, some 10] ∧
    s.deleteSelection 3 5 = some (s', ⟨3, []⟩, snap) ∧
    s'.texts = [(2, some ['a', 'b']), (4, some ['e', 'f']), (5, some []), (6, some [])] := by
  refine ⟨_, _, _, rfl, ?_, ?_, rfl, ?_⟩ <;> decide +kernel

/-- **C93, negative (a cell next to the selection).** In "ab" and a table with the cells "x", "y", "z", let only the end of
the paragraph "ab" be selected (from 2 to 3).  Deleting it empties the first cell, no character of which is selected. -/
theorem C93_next_cell_fails : ∃ s s' : Store, ∃ r snap, rowSample ['z'] = some s ∧
    s.texts = [(2, some ['a', 'b']), (3, some ['x']), (4, some ['y']), (5, some ['z'])] ∧
    [2, 3, 4, 5].map (fun i => (s.blocks i).map fun b => b.documentPosition) = [some 0, some 3, some 5, some 7] ∧
    s.deleteSelection 2 3 = some (s', r, snap) ∧
    s'.texts = [(2, some ['a', 'b']), (3, some []), (4, some ['y']), (5, some ['z'])] := by
  refine ⟨_, _, _, _, rfl, ?_, ?_, rfl, ?_⟩ <;> decide +kernel

/-- **C93, negative (the table goes).** With a selection inside the same table, from the end of its first cell to the end of
its last (from 4 to 8), deletion removes the table itself; up to the start of the last cell (from 4 to 7) it empties the
cells and keeps the table. -/
theorem C93_table_fails : ∃ s s1 s2 : Store, ∃ r1 u1 r2 u2, rowSample ['z'] = some s ∧ s.tables.keys = [1] ∧
    s.deleteSelection 4 7 = some (s1, r1, u1) ∧ s.deleteSelection 4 8 = some (s2, r2, u2) ∧
    s1.tables.keys = [1] ∧ s1.texts = [(2, some ['a', 'b']), (3, some []), (4, some []), (5, some [])] ∧
    s2.tables.keys = [] ∧ s2.texts = [(2, some ['a', 'b'])] := by
  refine ⟨_, _, _, _, _, _, _, rfl, ?_, rfl, rfl, ?_⟩ <;> decide +kernel

/-- **C93, negative (the next deletion).** After the cells "x" and "y" were emptied (from 3 to 5), the cell "z" starts at 5.
Deleting its text (from 5 to 6) leaves the third cell without a paragraph: the stored positions were not updated, and the
paragraph is joined to the one in the second cell. -/
theorem C93_next_deletion_fails : ∃ s s1 s2 : Store, ∃ r1 u1 r2 u2, rowSample ['z'] = some s ∧
    s.deleteSelection 3 5 = some (s1, r1, u1) ∧ s1.deleteSelection 5 6 = some (s2, r2, u2) ∧
    s1.texts = [(2, some ['a', 'b']), (3, some []), (4, some []), (5, some ['z'])] ∧
    [3, 4, 5].map (fun f => s1.frameBlocks f) = [[3], [4], [5]] ∧
    [3, 4, 5].map (fun f => s2.frameBlocks f) = [[3], [4], []] := by
  refine ⟨_, _, _, _, _, _, _, rfl, rfl, rfl, ?_⟩
  decide +kernel

/-- **C93, negative (the next typing).** With an empty last cell, after the cells "x" and "y" were emptied, what is typed into
the second cell (at 4) is in the third: emptying the paragraph before the last one took away the end of it, and the two
cannot be told apart any more. -/
theorem C93_next_typing_fails : ∃ s s1 s2 : Store, ∃ r1 u1 r2 u2, rowSample [] = some s ∧
    s.deleteSelection 3 5 = some (s1, r1, u1) ∧ s1.insertText ⟨4, 4, ['w']⟩ = some (s2, r2, u2) ∧
    s1.texts = [(2, some ['a', 'b']), (3, some []), (4, some []), (5, some [])] ∧
    s2.texts = [(2, some ['a', 'b']), (3, some []), (4, some []), (5, some ['w'])] := by
  refine ⟨_, _, _, _, _, _, _, rfl, rfl, rfl, ?_⟩
  decide +kernel

end Verif

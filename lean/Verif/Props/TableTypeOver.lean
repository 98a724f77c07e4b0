import Verif.Lemmas.TableTypeOver
import Verif.Props.ReplaceTabled
import Verif.Props.FormattedText
/-
C68, continued: typing over a selection in documents with tables.
-/
namespace Verif
variable {s : Store} {d : Document} {f : Nat} {items : List SItem}
open Store

/-- **C68 (typing over a selection).** In every document with tables, typing over a selection inside one paragraph, in a cell or
not, replaces exactly the selected characters: the rest of the text, the tables, paragraph formats and lists stay, the character
count follows, the caret goes behind the new text and undo brings the content back. -/
theorem C68_type_over (h : Tabled s d f items) (ht : tablesOf items ≠ []) {n k l : Nat} {p : SPara} (hp : (flowParas items)[n]? = some p)
    (hkl : k < l) (hl : l ≤ p.chars.length) (x y : Nat) (hx : min x y = paraStart (flowParas items) n + k)
    (hy : max x y = paraStart (flowParas items) n + l) (t : List Char) :
    ∃ s' snap items', s.insertText ⟨x, y, t⟩ = some (s', ⟨((min x y + t.length : Nat) : Int), 1⟩, .selection snap) ∧
      Tabled s' { d with characterCount := d.characterCount - (l - k : Nat) + t.length } f items' ∧
      flowParas items' = typeAt (min x y) t (deleteBetween (min x y) (max x y) (flowParas items)) ∧
      arrangement items' = arrangement items ∧ Seated s' (flowParas items') ∧ s'.lists = s.lists ∧
      ∃ r, s'.undoInsert (.selection snap) = some r ∧ SameContent r s := by
  obtain ⟨L, R, e, hL, hst⟩ := para_split hp
  rw [hst] at hx hy
  have hc : p.chars = p.chars.take k ++ (p.chars.take l).drop k ++ p.chars.drop l := by
    have : p.chars.take k = (p.chars.take l).take k := by rw [List.take_take]; congr 1; omega
    rw [this, List.take_append_drop, List.take_append_drop]
  have l1 : (p.chars.take k).length = k := by simp; omega
  have l2 : ((p.chars.take l).drop k).length = l - k := by simp; omega
  obtain ⟨s', g1, g2, g3, g4⟩ := h.insertWithSelection (dto := ⟨x, y, t⟩) ht e hc (by
    intro e0; rw [e0] at l2; simp at l2; omega)
    (by show min (x : Int) (y : Int) = _; rw [l1]; omega) (by show max (x : Int) (y : Int) = _; rw [l1, l2]; omega)
  have hi : s.insertText ⟨x, y, t⟩ = s.insertWithSelection ⟨x, y, t⟩ := by
    unfold Store.insertText
    rw [if_pos (by simp; omega)]
  have hmin : min (x : Int) (y : Int) + t.length = ((min x y + t.length : Nat) : Int) := by omega
  obtain ⟨L0, hH, _⟩ := h.content
  have hn := hH.ids_nodup
  refine ⟨s', s.snapshot, _, ?_, ?_, ?_, arrangement_on ?_, g2.seated (by rw [tablesOf_on]; simpa using ht), g3.lists, _, rfl, (C27_undo_snapshot s s').1⟩
  · rw [hi, g1]; simp only [hmin]
  · rw [l2] at g2; exact g2
  · have hdel := deleteBetween_within L R hc
    have hty := typeAt_eq (p := { p with chars := p.chars.take k ++ p.chars.drop l }) (a := p.chars.take k) (b := p.chars.drop l) L R t rfl
    rw [l1, l2] at hdel
    rw [l1] at hty
    rw [flowParas_on]
    have : charsBefore (paras L) + (k + (l - k)) = max x y := by omega
    rw [this, ← hx] at hdel
    rw [← hx] at hty
    rw [e, hdel, hty]
    rw [e] at hn
    rw [← map_replace hn { p with chars := p.chars.take k ++ styled t (inheritFmt (p.chars.take k)) ++ p.chars.drop l }]
    apply List.map_congr_left
    intro q hq
    by_cases hq' : q.id = p.id
    · rw [if_pos hq', if_pos hq', hH.unique (by rw [e]; simp) (by rw [e]; exact hq) hq']
    · rw [if_neg hq', if_neg hq']
  · intro q; split <;> exact ⟨rfl, rfl⟩

/-- **C68 (selections over several paragraphs).** `insert_text` itself refuses a selection that reaches from one paragraph or cell
into another; nothing is changed. -/
theorem C68_type_across (h : Tabled s d f items) (ht : tablesOf items ≠ []) {n n' k l : Nat} {p q : SPara}
    (hp : (flowParas items)[n]? = some p) (hq : (flowParas items)[n']? = some q) (hlt : n < n') (hk : k ≤ p.chars.length)
    (hl : l ≤ q.chars.length) (x y : Nat) (hx : min x y = paraStart (flowParas items) n + k)
    (hy : max x y = paraStart (flowParas items) n' + l) (t : List Char) : s.insertText ⟨x, y, t⟩ = none := by
  obtain ⟨L, R, e, hL, hst⟩ := para_split hp
  obtain ⟨L', R', e', hL', hst'⟩ := para_split hq
  have hpl : Placed s (flowParas items) := placed_of_seated (h.seated ht)
  have l1 : (p.chars.take k).length = k := by simp; omega
  have l2 : (q.chars.take l).length = l := by simp; omega
  have hne : x ≠ y := by
    intro exy
    subst exy
    have he : L ++ p :: R = L' ++ q :: R' := by rw [← e, ← e']
    have : L' = L ++ p :: (L'.drop (n + 1)) := by
      have h1 : L' = (L ++ p :: R).take n' := by rw [he, ← hL']; simp
      rw [h1, List.take_append, List.drop_append]
      rw [List.take_of_length_le (by omega)]
      have : n' - L.length = (n' - n - 1) + 1 := by omega
      rw [this, List.take_succ_cons]
      have h2 : n + 1 - L.length = 1 := by omega
      rw [List.drop_of_length_le (by omega), h2]
      simp
    rw [hst'] at hy
    rw [hst] at hx
    rw [this, charsBefore_paras_two, charsBefore_paras_cons] at hy
    omega
  unfold Store.insertText
  rw [if_pos (by simp; omega)]
  unfold Store.insertWithSelection
  rw [h.docIdOf, Option.bind_some, h.document, Option.bind_some]
  dsimp only
  rw [h.flowBlocks, Option.bind_some, h.placedEntities hpl, sortByKey_of_sorted _ (placed_sorted 0 _)]
  have hmin : min (x : Int) (y : Int) = ((charsBefore (paras L) + (p.chars.take k).length : Nat) : Int) := by rw [l1, ← hst]; omega
  have hmax : max (x : Int) (y : Int) = ((charsBefore (paras L') + (q.chars.take l).length : Nat) : Int) := by rw [l2, ← hst']; omega
  rw [hmin, h.find e (b := p.chars.drop k) (List.take_append_drop _ _).symm, Option.bind_some]
  dsimp only
  rw [hmax, h.find e' (b := q.chars.drop l) (List.take_append_drop _ _).symm, Option.bind_some]
  dsimp only
  rw [if_pos (by omega)]

/-- Typing "zz" over the "x" of the first cell of "a", a table of x | y, and "b". -/
example : ∃ (s s' : Store) (d : Document) (f : Nat) (items items' : List SItem) (u : InsertUndo),
    Tabled s d f items ∧ tablesOf items ≠ [] ∧ (flowParas items).map SPara.text = [['a'], ['x'], ['y'], ['b']] ∧
    s.insertText ⟨3, 2, ['z', 'z']⟩ = some (s', ⟨4, 1⟩, u) ∧
    Tabled s' { d with characterCount := d.characterCount - 1 + 2 } f items' ∧
    (flowParas items').map SPara.text = [['a'], ['z', 'z'], ['y'], ['b']] := by
  obtain ⟨s, d, f, items, h1, h2, h3, h4, h5, h6, _⟩ := listed_tables
  obtain ⟨a, b, c, e, hfl⟩ : ∃ a b c e, flowParas items = [a, b, c, e] := by
    have hlen : (flowParas items).length = 4 := by have := congrArg List.length h6; simpa using this
    rcases hx : flowParas items with _ | ⟨a, _ | ⟨b, _ | ⟨c, _ | ⟨e, _ | ⟨z, l⟩⟩⟩⟩⟩
    all_goals rw [hx] at hlen
    all_goals simp at hlen
    exact ⟨a, b, c, e, rfl⟩
  have h6' := h6
  rw [hfl] at h6'
  simp at h6'
  obtain ⟨b1, b2, b3, b4⟩ := h6'
  have la : a.chars.length = 1 := by rw [← SPara.text_len, b1]; rfl
  have lb : b.chars.length = 1 := by rw [← SPara.text_len, b2]; rfl
  have hs : paraStart (flowParas items) 1 = 2 := by rw [hfl]; simp [paraStart, la]
  obtain ⟨s', snap, items', k1, k2, k3, _⟩ := C68_type_over h1 h4 (n := 1) (k := 0) (l := 1) (p := b) (by rw [hfl]; rfl) (by omega) (by omega)
    3 2 (by rw [hs]; rfl) (by rw [hs]; rfl) ['z', 'z']
  refine ⟨s, s', d, f, items, items', _, h1, h4, h6, k1, k2, ?_⟩
  rw [k3, hfl]
  have hbc : ∃ g, b.chars = [('x', g)] := by
    unfold SPara.text at b2
    rcases hc : b.chars with _ | ⟨⟨u, f⟩, _ | ⟨v, l⟩⟩
    all_goals rw [hc] at b2
    all_goals simp at b2
    exact ⟨f, by rw [b2]⟩
  obtain ⟨g, hbc⟩ := hbc
  have hdel := deleteBetween_within [a] [c, e] (p := b) (a := []) (m := [('x', g)]) (b := []) hbc
  have hty := typeAt_eq (p := { b with chars := [] }) (a := []) (b := []) [a] [c, e] ['z', 'z'] rfl
  have hcb : charsBefore (paras [a]) = 2 := by
    rw [charsBefore_paras_cons, la]; rfl
  rw [hcb] at hdel hty
  simp at hdel hty
  have : typeAt (min 3 2) ['z', 'z'] (deleteBetween (min 3 2) (max 3 2) [a, b, c, e]) = [a, { b with chars := styled ['z', 'z'] (inheritFmt []) }, c, e] := by
    show typeAt 2 ['z', 'z'] (deleteBetween 2 3 [a, b, c, e]) = _
    rw [hdel, hty]
  rw [this]
  simp [b1, b3, b4]
  simp [SPara.text, styled]

/-- **C58, negative.** Unlike `insert_text`, `insert_formatted_text` does not move the stored positions of later paragraphs, so in a
document with a table a paragraph break after it goes elsewhere.  Here: "ab", a table of two cells, "cd".  A break between "c"
and "d" splits that paragraph; after inserting "xy" into "ab" the break at the same place splits nothing and adds an empty
paragraph.  After typing "xy" with `insert_text` it splits as it should. -/
theorem C58_table_fails : ∃ s s1 s2 s3 s4 s5 : Store, ∃ t snap q u r r5 u4,
    (Store.newStore.bind fun s => s.importPlainText "ab\ncd".toList) = some s ∧
    s.insertTable 2 2 1 2 = some (s1, t, 2, snap) ∧
    s1.insertFormatted ⟨1, 1, ['x', 'y'], TextFormat.toPlain {}⟩ = some (s2, q, u) ∧
    blockContent s2.text 2 = some ['a', 'x', 'y', 'b'] ∧
    (s2.insertBlock 8).map (fun r => (r.1, r.2.1)) = some (s3, r) ∧
    blockContent s3.text 3 = some ['c', 'd'] ∧ blockContent s3.text r.newBlockId = some [] ∧
    s1.insertText ⟨1, 1, ['x', 'y']⟩ = some (s4, u4) ∧
    (s4.insertBlock 8).map (fun r => (r.1, r.2.1)) = some (s5, r5) ∧
    blockContent s5.text 3 = some ['c'] ∧ blockContent s5.text r5.newBlockId = some ['d'] := by
  refine ⟨_, _, _, _, _, _, _, _, _, _, _, _, _, rfl, rfl, rfl, ?_, rfl, ?_, ?_, rfl, rfl, ?_, ?_⟩ <;> decide +kernel

end Verif

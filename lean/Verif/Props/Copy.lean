import Verif.Lemmas.Copy
import Verif.Props.PlainText
import Verif.Model.Editing
/-
C63: what copying a selection gives.
-/
namespace Verif
variable {s : Store} {d : Document} {f : Nat} {ps : List SPara}
open Store

/-- **C63.** Copying what lies between two positions, in either order, gives a fragment that has, for each paragraph
the selection touches, its selected characters with the formats they show; of a paragraph taken whole also the
paragraph format and the kind of list.  The plain text of the fragment is the selected text; if the selection
ends where a paragraph starts, the end of paragraph that closes the selection is left out.  Full statement: without
the hypothesis that stored positions are right, with images and tables; see `C63_stale_fails`. -/
theorem C63_copy_partial (h : Flat s d f ps) (hp : Placed s ps) (lo hi : Nat) (hlt : lo < hi) :
    ∃ fbs t, s.extractFragment lo hi = some (fbs, t) ∧ s.extractFragment hi lo = some (fbs, t) ∧
      CopiesOf s fbs (pieces lo hi 0 ps) ∧
      (hi ≤ docLen ps → ¬ IsStart ps hi → t = ((docText ps).take hi).drop lo) ∧
      (hi ≤ docLen ps → IsStart ps hi → t ++ ['\n'] = ((docText ps).take hi).drop lo) := by
  have hne := h.nonempty
  obtain ⟨qs, p, e⟩ : ∃ qs p, ps = qs ++ [p] := ⟨_, _, (List.dropLast_concat_getLast hne).symm⟩
  have hbl : sortByKey Block.documentPosition (s.getBlocks (([ps.map fun p => (p.id, f)] : List (List (Nat × Nat))).flatten.map Prod.fst)) =
      placed 0 ps := by
    have : ([ps.map fun p => (p.id, f)] : List (List (Nat × Nat))).flatten.map Prod.fst = ps.map SPara.id := by
      simp [Function.comp_def]
    rw [this, h.getBlocks]
    have e : (ps.map fun p => p.entity (s.storedPos p)) = placed 0 ps := by
      apply map_entity_placed
      intro L p R e
      obtain ⟨b, h1, h2⟩ := hp L p R e
      simp [Store.storedPos, h1, h2]
    rw [e]
    exact eq_of_sorted Block.documentPosition (sortByKey_perm _ _) (sortByKey_sorted _ _) (placed_strict 0 ps)
  have hpairs : mapOpt (s.blocksBelow (s.frames.len + 1)) (s.docFrames d.id) = some [ps.map fun p => (p.id, f)] := by
    rw [h.docFrames]
    simp only [mapOpt]
    rw [h.blocksBelow]; rfl
  have hlastid : ((placed 0 ps).getLast?.map Block.id).getD 0 = p.id := by
    rw [e]; exact getLast_placed 0 qs p
  have hnd := h.ids_nodup
  obtain ⟨l, h1, h2⟩ := h.toShows.extractBlocks lo hi p.id hlt ps 0 (fun q hq => hq) (by
    intro A q B e'
    constructor
    · intro hid
      cases hB : B with
      | nil => rfl
      | cons x B' =>
        exfalso
        have hBne : B ≠ [] := by rw [hB]; simp
        have hpB : p ∈ B := by
          have : ps.getLast? = B.getLast? := by
            rw [e', List.getLast?_append, List.getLast?_cons_of_ne_nil hBne]
            cases hb : B.getLast? with
            | none => exact absurd (List.getLast?_eq_none_iff.mp hb) hBne
            | some y => rfl
          rw [e, List.getLast?_concat] at this
          exact List.mem_of_getLast? this.symm
        rw [e', List.map_append, List.map_cons, List.nodup_append] at hnd
        have := (List.nodup_cons.mp hnd.2.1).1
        exact this (hid ▸ List.mem_map_of_mem hpB)
    · intro hB
      subst hB
      rw [e] at e'
      have := List.append_inj_right' e' rfl
      simp at this
      rw [this])
  have hrun : ∀ x y : Int, min x y = (lo : Int) → max x y = (hi : Int) →
      s.extractFragment x y = some (l.filterMap id, joinLines ((l.filterMap id).map FragBlock.text)) := by
    intro x y hx hy
    unfold Store.extractFragment
    rw [hx, hy]
    simp only []
    rw [if_neg (by omega), h.docId, Option.bind_some, hpairs, Option.bind_some, hbl,
      h.toShows.notCrossCopy d.id h.docTables (fun x hx => (placed_entities 0 ps).all x hx), Option.bind_some, hlastid]
    have h1' : mapOpt (s.extractBlock lo hi p.id) (placed 0 ps) = some l := h1
    simp only [Bool.false_eq_true, if_false]
    rw [h1']; rfl
  have htext := copies_text h2
  have hpc := pieceChars_pieces hlt ps 0 (by omega)
  have hst : IsStart ps hi ↔ ∃ L p R, ps = L ++ p :: R ∧ L ≠ [] ∧ hi = 0 + charsBefore (paras L) := by
    simp only [IsStart, charsBefore_sum, Nat.zero_add]
  refine ⟨_, _, hrun lo hi (by omega) (by omega), hrun hi lo (by omega) (by omega), h2, ?_, ?_⟩
  · intro hle hn
    rw [hst] at hn
    rw [htext, (hpc (by omega)).1 hn, docText_chars, List.map_drop, List.map_take]; rfl
  · intro hle hn
    rw [hst] at hn
    have := (hpc (by omega)).2 hn
    rw [htext, docText_chars, ← List.map_take, ← List.map_drop]
    have e2 : (((docChars ps).take hi).drop lo) = pieceChars (pieces lo hi 0 ps) ++ [('\n', none)] := this.symm
    rw [e2]; simp

/-- Nothing is copied of nothing. -/
theorem C63_empty (s : Store) (pos : Int) : s.extractFragment pos pos = some ([], []) := by
  unfold Store.extractFragment
  rw [if_pos (by omega)]

/-- A document of three lines, of which the selection takes part of the first and all of the second. -/
example : ∃ s d f ps fbs, Flat s d f ps ∧ Placed s ps ∧ s.extractFragment 1 7 = some (fbs, "bc\ndef".toList) ∧
    fbs.map FragBlock.text = ["bc".toList, "def".toList] := by
  obtain ⟨s, e1, e2, e3, _⟩ := newStore_flat
  obtain ⟨s1, g1, g2, g3, g4⟩ := e2.import e3 "abc\ndef\nghi".toList
  refine ⟨s1, _, _, _, [⟨"bc".toList, [.text "bc".toList {}], {}, none⟩, ⟨"def".toList, [.text "def".toList {}], {}, none⟩],
    g2, g4, ?_, rfl⟩
  cases e1; cases g1; decide +kernel

/-- Without right positions the claim is false: typing at the start of a document of two lines leaves the stored
position of the second line behind, and copying that line then gives nothing at all. -/
theorem C63_stale_fails : ∃ s s1 : Store, ∃ r,
    (Store.newStore.bind fun s => s.importPlainText "ab\ncd".toList) = some s ∧
    s.insertText { position := 0, anchor := 0, text := "xyz".toList } = some (s1, r) ∧ s1.exportPlainText = some "xyzab\ncd".toList ∧
    s1.extractFragment 6 8 = some ([], []) := by
  refine ⟨_, _, _, rfl, rfl, ?_⟩ <;> decide +kernel

/-- A selection that ends with an end of paragraph loses it when copied. -/
theorem C63_newline_fails : ∃ s : Store, ∃ fb,
    (Store.newStore.bind fun s => s.importPlainText "abc\ndef".toList) = some s ∧
    s.extractFragment 1 4 = some ([fb], "bc".toList) ∧ fb.format = {} := by
  refine ⟨_, ⟨"bc".toList, [.text "bc".toList {}], {}, none⟩, rfl, ?_⟩
  decide +kernel

end Verif

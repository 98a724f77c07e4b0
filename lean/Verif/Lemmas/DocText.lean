import Verif.Lemmas.DocxDoc
import Verif.Lemmas.TableEditDrop
import Verif.Model.PlainText
/- Plain-text export of documents with tables. -/
namespace Verif
open Store

variable {s : Store} {d : Document} {f : Nat} {items : List SItem} {p : SPara} {t : STable} {ps : List SPara}

theorem Carries.contents {L : List Para} {ts : List Nat} (h : Carries s L ps ts) (v : SPara → Int) :
    ∀ qs : List SPara, (∀ q ∈ qs, q ∈ ps) →
    mapOpt (fun b : Block => blockContent s.text b.id) (qs.map fun p => p.entity (v p)) = some (qs.map SPara.text) := by
  intro qs
  induction qs with
  | nil => intro _; rfl
  | cons q qs ih =>
    intro hq
    rw [List.map_cons, mapOpt, show (q.entity (v q)).id = q.id from rfl, h.content (hq q (by simp)), Option.bind_some,
      ih fun x hx => hq x (by simp [hx])]
    rfl

/-- The frames of the cells of a document. -/
def cellFrames (items : List SItem) : List Nat := (cellsOf items).map SCell.frame

theorem Arranged.framesText (h : Arranged s d f items) (ho : Ascends s (flowParas items)) (gs : List Nat)
    (hg : ∀ g ∈ gs, g ∈ tableFrames items) :
    ∃ cs : List SCell, (∀ c ∈ cs, c ∈ cellsOf items) ∧ cs.map SCell.frame = gs.filter (fun g => decide (g ∈ cellFrames items)) ∧
      s.frameTexts gs = some ((cs.flatMap SCell.paras).map SPara.text) := by
  obtain ⟨L, hL, _⟩ := h.content
  have hnd : (tableFrames items).Nodup := (List.nodup_cons.mp h.distinct.1).2
  induction gs with
  | nil => exact ⟨[], by simp, rfl, rfl⟩
  | cons g gs ih =>
    obtain ⟨cs, c1, c2, c3⟩ := ih fun x hx => hg x (by simp [hx])
    unfold Store.frameTexts at c3 ⊢
    rw [mapOpt]
    cases hm : mapOpt (fun fid => mapOpt (fun b : Block => blockContent s.text b.id)
      (sortByKey Block.documentPosition (s.getBlocks (s.frameBlocks fid)))) gs with
    | none => rw [hm] at c3; cases c3
    | some us =>
      rw [hm, Option.map_some, Option.some.injEq] at c3
      have hmem := hg g (by simp)
      unfold tableFrames at hmem
      obtain ⟨t, ht, hg'⟩ := List.mem_flatMap.mp hmem
      by_cases hcell : g ∈ cellFrames items
      · obtain ⟨c, hc, rfl⟩ := List.mem_map.mp hcell
        obtain ⟨u, hu, huc⟩ := mem_cellsOf.mp hc
        refine ⟨c :: cs, ?_, ?_, ?_⟩
        · intro x hx
          rcases List.mem_cons.mp hx with rfl | hx
          · exact hc
          · exact c1 x hx
        · rw [List.map_cons, List.filter_cons, if_pos (by simpa using hcell), c2]
        · rw [h.sortedBlocks hu huc (ho.sublist (cellParas_sublist hu huc)),
            hL.contents _ _ (fun q hq => (cellParas_sublist hu huc).subset hq), Option.bind_some, Option.map_some, Option.map_some,
            List.flatten_cons, c3, List.flatMap_cons, List.map_append]
      · refine ⟨cs, c1, ?_, ?_⟩
        · rw [List.filter_cons, if_neg (by simpa using hcell), c2]
        · have hga : g = t.anchor := by
            rcases List.mem_cons.mp hg' with e | e
            · exact e
            · obtain ⟨c, hc, rfl⟩ := List.mem_map.mp e
              exact absurd (List.mem_map_of_mem (mem_cellsOf.mpr ⟨t, ht, hc⟩)) hcell
          obtain ⟨fr, a1, _, _, a2, _⟩ := (h.table t ht).anchor
          have : s.frameBlocks g = [] := by
            unfold Store.frameBlocks
            rw [hga, a1, Option.map_some, Option.getD_some, a2]
          rw [this]
          show (((some []).bind fun x => (some us).map fun xs => x :: xs).map List.flatten) = _
          rw [Option.bind_some, Option.map_some, Option.map_some, List.flatten_cons, c3, List.nil_append]

theorem cellFrames_distinct (h : (tableFrames items).Nodup) : (cellFrames items).Nodup := by
  have : (cellFrames items).Sublist (tableFrames items) := by
    unfold cellFrames cellsOf tableFrames
    induction tablesOf items with
    | nil => exact .slnil
    | cons t ts ih =>
      rw [List.flatMap_cons, List.flatMap_cons, List.map_append]
      exact ((List.Sublist.refl _).cons _).append ih
  exact this.nodup h

theorem cellFrames_subset {g : Nat} (h : g ∈ cellFrames items) : g ∈ tableFrames items := by
  obtain ⟨c, hc, rfl⟩ := List.mem_map.mp h
  obtain ⟨t, ht, hc⟩ := mem_cellsOf.mp hc
  exact List.mem_flatMap.mpr ⟨t, ht, List.mem_cons_of_mem _ (List.mem_map_of_mem hc)⟩

theorem joinLines_eq (ls : List (List Char)) : joinLines ls = joinNl ls := by
  cases ls with
  | nil => rfl
  | cons l ls =>
    induction ls generalizing l with
    | nil => simp [joinLines, joinNl]
    | cons x xs ih =>
      have := ih x
      simp only [joinLines] at this
      simp only [joinLines, joinNl, List.flatMap_cons, ← this]
      simp

theorem Arranged.exportPlainText (h : Arranged s d f items) (ho : Ascends s (flowParas items)) (ht : tablesOf items ≠ []) :
    ∃ cs : List SCell, cs.Perm (cellsOf items) ∧ cs.map SCell.frame = d.frames.filter (fun g => decide (g ∈ cellFrames items)) ∧
      s.exportPlainText = some (docText (topParas items ++ cs.flatMap SCell.paras)) := by
  obtain ⟨L, hL, _⟩ := h.content
  obtain ⟨rest, r1, r2⟩ := h.frames
  have hf := List.nodup_cons.mp h.distinct.1
  obtain ⟨cs, c1, c2, c3⟩ := h.framesText ho rest fun g hg => r2.mem_iff.mp hg
  have hfil : d.frames.filter (fun g => decide (g ∈ cellFrames items)) = rest.filter (fun g => decide (g ∈ cellFrames items)) := by
    rw [r1, List.filter_cons, if_neg]
    simpa using fun hh => hf.1 (cellFrames_subset hh)
  have hcn := cellFrames_distinct hf.2
  have hcs : (cs.map SCell.frame).Nodup := by
    rw [c2]; exact (r2.nodup_iff.mpr hf.2).filter _
  refine ⟨cs, ?_, by rw [hfil, c2], ?_⟩
  · have nod : ∀ l : List SCell, (l.map SCell.frame).Nodup → l.Nodup := by
      intro l hl
      unfold List.Nodup at hl
      rw [List.pairwise_map] at hl
      exact hl.imp fun h e => h (by rw [e])
    rw [List.perm_ext_iff_of_nodup (nod _ hcs) (nod _ hcn)]
    refine fun c => ⟨c1 c, fun hc => ?_⟩
    have h1 : c.frame ∈ cellFrames items := List.mem_map_of_mem hc
    have h2 : c.frame ∈ cs.map SCell.frame := by
      rw [c2, List.mem_filter]
      exact ⟨r2.mem_iff.mpr (cellFrames_subset h1), by simpa using h1⟩
    obtain ⟨c', hc', e⟩ := List.mem_map.mp h2
    have : c' = c := eq_of_nodup_map hcn (c1 c' hc') hc e
    rwa [← this]
  · have hdf : s.docFrames d.id = f :: rest := by
      unfold Store.docFrames
      rw [h.document, Option.map_some, Option.getD_some, r1]
    have hrest : rest ≠ [] := by
      intro e
      rw [e] at r2
      have := r2.symm.eq_nil
      cases hts : tablesOf items with
      | nil => exact ht hts
      | cons t ts => simp [tableFrames, hts] at this
    have hsimple : ropeFlatTextIfSimple s.text (f :: rest).length = none := by
      unfold ropeFlatTextIfSimple
      rw [if_pos]
      cases rest with
      | nil => exact absurd rfl hrest
      | cons x xs => simp
    unfold Store.exportPlainText
    rw [h.docId, Option.bind_some, hdf, hsimple]
    dsimp only
    have : s.frameTexts (f :: rest) = some ((topParas items).map SPara.text ++ (cs.flatMap SCell.paras).map SPara.text) := by
      unfold Store.frameTexts at c3 ⊢
      rw [mapOpt, h.mainBlocks ho, hL.contents _ _ (fun q hq => (topParas_sublist items).subset hq), Option.bind_some]
      cases hm : mapOpt (fun fid => mapOpt (fun b : Block => blockContent s.text b.id)
        (sortByKey Block.documentPosition (s.getBlocks (s.frameBlocks fid)))) rest with
      | none => rw [hm] at c3; cases c3
      | some us =>
        rw [hm, Option.map_some, Option.some.injEq] at c3
        rw [Option.map_some, Option.map_some, List.flatten_cons, c3]
    rw [this, Option.map_some, joinLines_eq, ← List.map_append]
    rfl

end Verif

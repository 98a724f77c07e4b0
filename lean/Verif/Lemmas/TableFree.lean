import Verif.Lemmas.TablePlace
/- Documents without tables, as documents with tables. -/
namespace Verif
variable {s s' : Store} {d : Document} {f : Nat} {ps : List SPara}
open Store

/-- No frame has a parent. -/
def Orphans (s : Store) : Prop := ∀ g x, s.frames g = some x → x.parentFrame = none

/-- Tables and the frame counter are the same; no frame gets a parent. -/
def Tame (s s' : Store) : Prop := s'.tables = s.tables ∧ s'.next "frame" = s.next "frame" ∧ (Orphans s → Orphans s')

theorem Tame.refl (s : Store) : Tame s s := ⟨rfl, rfl, id⟩
theorem Tame.trans {a b c : Store} (h : Tame a b) (h' : Tame b c) : Tame a c :=
  ⟨h'.1.trans h.1, h'.2.1.trans h.2.1, fun x => h'.2.2 (h.2.2 x)⟩

theorem orphans_insert {i : Nat} {x : Frame} (h : Orphans s) (hx : x.parentFrame = none) (e : s'.frames = s.frames.insert i x) :
    Orphans s' := by
  intro g y hy
  rw [e, IdMap.insert_get] at hy
  split at hy
  · cases hy; exact hx
  · exact h g y hy

theorem orphans_map {m : Frame → Frame} (h : Orphans s) (hm : ∀ x, x.parentFrame = none → (m x).parentFrame = none)
    (e : s'.frames = s.frames.mapValues m) : Orphans s' := by
  intro g y hy
  rw [e, IdMap.mapValues_get, Option.map_eq_some_iff] at hy
  obtain ⟨x, hx, rfl⟩ := hy
  exact hm x (h g x hx)

theorem tame_setFrameBlocks {ids : List Nat} (h : s.setFrameBlocks f ids = some s') : Tame s s' := by
  unfold Store.setFrameBlocks at h
  split at h
  · split at h
    · rename_i fr e
      cases h
      exact ⟨rfl, rfl, fun ho => orphans_insert (x := { fr with blocks := ids }) ho (ho f fr e) rfl⟩
    · cases h; exact .refl _
  · cases h

theorem tame_setDocFrames {ids : List Nat} (h : s.setDocFrames f ids = some s') : Tame s s' := by
  unfold Store.setDocFrames at h
  split at h
  · split at h
    · cases h; exact ⟨rfl, rfl, id⟩
    · cases h; exact .refl _
  · cases h

theorem tame_rewriteOwners {ids : List Nat} (l : List (Nat × List Nat)) : ∀ {s : Store},
    Store.rewriteOwners ids l s = some s' → Tame s s' := by
  induction l with
  | nil => intro s h; cases h; exact .refl _
  | cons x l ih =>
    intro s h
    simp only [Store.rewriteOwners, Option.bind_eq_some_iff] at h
    obtain ⟨s1, h1, h2⟩ := h
    exact (tame_setFrameBlocks h1).trans (ih h2)

theorem tame_rewriteDocs {id : Nat} (l : List (Nat × List Nat)) : ∀ {s : Store},
    Store.rewriteDocs id l s = some s' → Tame s s' := by
  induction l with
  | nil => intro s h; cases h; exact .refl _
  | cons x l ih =>
    intro s h
    simp only [Store.rewriteDocs, Option.bind_eq_some_iff] at h
    obtain ⟨s1, h1, h2⟩ := h
    exact (tame_setDocFrames h1).trans (ih h2)

theorem tame_removeBlocks {ids : List Nat} (h : s.removeBlocks ids = some s') : Tame s s' := by
  unfold Store.removeBlocks at h
  split at h
  · cases h; exact .refl _
  · exact Tame.trans (b := s.tableRemoveBlocks ids) ⟨rfl, rfl, fun ho => orphans_map ho (by intro x hx; unfold stripFrame; split <;> exact hx) rfl⟩ (tame_rewriteOwners _ h)

theorem orphans_remove (ho : Orphans s) : Orphans (s.tableRemoveFrame f) := by
  intro g y hy
  have hy : ((s.frames.erase f).mapValues fun x => if x.parentFrame = some f then { x with parentFrame := none } else x) g = some y := hy
  rw [IdMap.mapValues_get, Option.map_eq_some_iff] at hy
  obtain ⟨x, hx, rfl⟩ := hy
  rw [IdMap.erase_get] at hx
  split at hx
  · cases hx
  · have := ho g x hx
    split
    · rfl
    · exact this

theorem tame_removeFrame (h : s.removeFrame f = some s') : Tame s s' := by
  unfold Store.removeFrame at h
  split at h
  · cases h; exact .refl _
  · simp only [Option.bind_eq_some_iff] at h
    obtain ⟨s1, h1, h2⟩ := h
    exact (tame_removeBlocks h1).trans (Tame.trans (b := s1.tableRemoveFrame f) ⟨rfl, rfl, orphans_remove⟩ (tame_rewriteDocs _ h2))

theorem tame_removeFrames (l : List Nat) : ∀ {s : Store}, Store.removeFrames l s = some s' → Tame s s' := by
  induction l with
  | nil => intro s h; cases h; exact .refl _
  | cons x l ih =>
    intro s h
    simp only [Store.removeFrames, Option.bind_eq_some_iff] at h
    obtain ⟨s1, h1, h2⟩ := h
    exact (tame_removeFrame h1).trans (ih h2)

theorem tame_createBlock {b : Block} {i : Nat} {n : Int} (h : s.createBlock b f n = some (i, s')) : Tame s s' := by
  unfold Store.createBlock Store.insertNewBlock at h
  split at h
  · simp only [Option.bind_some, Option.map_eq_some_iff, Prod.mk.injEq] at h
    obtain ⟨s1, h1, _, rfl⟩ := h
    have t := tame_setFrameBlocks h1
    exact ⟨t.1, t.2.1.trans (next_other (a := "block") (b := "frame") (by decide) s), t.2.2⟩
  · split at h
    · cases h
    · simp only [Option.bind_some, Option.map_eq_some_iff, Prod.mk.injEq] at h
      obtain ⟨s1, h1, _, rfl⟩ := h
      have t := tame_setFrameBlocks h1
      exact ⟨t.1, t.2.1, t.2.2⟩

theorem tame_importLines (ls : List (List Char)) : ∀ {s : Store} {first : Bool} {pos : Int} {ids n},
    Store.importLines f first pos ls s = some (ids, n, s') → Tame s s' := by
  induction ls with
  | nil => intro s first pos ids n h; cases h; exact .refl _
  | cons l ls ih =>
    intro s first pos ids n h
    simp only [Store.importLines, Option.bind_eq_some_iff, Option.map_eq_some_iff] at h
    obtain ⟨⟨i, s1⟩, h1, ⟨ids', n', s2⟩, h2, h3⟩ := h
    cases h3
    have t := ih h2
    exact (tame_createBlock h1).trans ⟨t.1, t.2.1, t.2.2⟩

theorem tame_import {t : List Char} (h : s.importPlainText t = some s') :
    s'.tables = s.tables ∧ s'.next "frame" = s.next "frame" + 1 ∧ (Orphans s → Orphans s') := by
  unfold Store.importPlainText at h
  simp only [Option.bind_eq_some_iff, Option.map_eq_some_iff] at h
  obtain ⟨did, _, s1, h1, ⟨fid, s2⟩, h2, ⟨ids, n, s3⟩, h3, fr, h4, doc, h5, rfl⟩ := h
  have t1 := tame_removeFrames _ h1
  have t3 := tame_importLines _ h3
  have t2 : s2.tables = s1.tables ∧ s2.next "frame" = s1.next "frame" + 1 ∧ (Orphans s1 → Orphans s2) := by
    unfold Store.createFrame Store.insertNewFrame at h2
    rw [if_pos rfl] at h2
    simp only [Option.bind_some, Option.map_eq_some_iff, Prod.mk.injEq] at h2
    obtain ⟨s4, h6, _, rfl⟩ := h2
    have := tame_setDocFrames h6
    exact ⟨this.1, this.2.1.trans (next_self "frame" s1), fun ho => this.2.2 (orphans_insert ho rfl rfl)⟩
  refine ⟨?_, ?_, ?_⟩
  · exact (t3.1.trans t2.1).trans t1.1
  · show s3.next "frame" = _
    rw [t3.2.1]
    show s2.next "frame" = _
    rw [t2.2.1, t1.2.1]
  · intro ho
    have h3' : Orphans s3 := t3.2.2 (t2.2.2 (t1.2.2 ho))
    refine orphans_insert (s := s3) (i := fr.id) (x := keepFrame { fr with childOrder := _ } (s3.frames fr.id)) h3' ?_ rfl
    cases e : s3.frames fr.id with
    | none => exact h3' fid fr h4
    | some x => exact h3' fr.id x e

theorem flow_paras (ps : List SPara) : flowParas (ps.map .para) = ps := by
  unfold flowParas; rw [List.flatMap_map]; exact List.flatMap_singleton' ps
theorem top_paras (ps : List SPara) : topParas (ps.map .para) = ps := by
  unfold topParas; rw [List.flatMap_map]; exact List.flatMap_singleton' ps
theorem tables_paras (ps : List SPara) : tablesOf (ps.map .para) = [] := by
  unfold tablesOf; rw [List.flatMap_map]; simp

/-- A document without tables is one with no tables. -/
theorem Flat.tabled (h : Flat s d f ps) (hs : Sole d.id f s) (ht : ∀ i, s.tables i = none)
    (hf : 0 < f ∧ f < s.next "frame") (hfp : ∀ fr, s.frames f = some fr → fr.parentFrame = none) :
    Tabled s d f (ps.map .para) := by
  have e1 := flow_paras ps
  have e2 := top_paras ps
  have e3 := tables_paras ps
  have e4 : tableFrames (ps.map .para) = [] := by unfold tableFrames; rw [e3]; rfl
  have e5 : cellsOf (ps.map .para) = [] := by unfold cellsOf; rw [e3]; rfl
  constructor
  · exact h.root
  · exact h.document
  · refine ⟨paras ps, ⟨h.text, ?_, ?_, ?_, ?_, ?_, ?_, ?_⟩, ?_⟩
    · rw [e1, e3]; simp
    · rw [e1]; exact h.keys
    · rw [e1]; exact h.block
    · rw [e1]; exact h.formats
    · rw [e1]; exact h.images
    · rw [e1]; exact h.fresh
    · intro i hi
      have hb : s.blocks i = none := h.absent i (by
        intro hm
        obtain ⟨p, hp, rfl⟩ := List.mem_map.mp hm
        have := h.fresh p hp; omega)
      constructor
      · cases e : s.formatRuns i with
        | none => rfl
        | some x => have := hs.runs i (by rw [e]; rfl); rw [hb] at this; cases this
      · cases e : s.blockImages i with
        | none => rfl
        | some x => have := hs.images i (by rw [e]; rfl); rw [hb] at this; cases this
    · rw [e2]; exact List.Sublist.refl _
  · obtain ⟨fr, f1, f2, f3, f4⟩ := h.frame
    refine ⟨fr, f1, f2, hfp fr f1, (h.plain fr f1).1, (h.plain fr f1).2, ?_, ?_⟩
    · rw [f3, List.map_map]; rfl
    · rw [e2]; exact f4
  · rw [e3]; simp
  · exact ⟨[], h.frames, by rw [e4]⟩
  · rw [e4, e5]; simp
  · intro g hg
    obtain ⟨fr, e⟩ := Option.isSome_iff_exists.mp hg
    rw [(hs.frames g fr e).1]; simp
  · rw [h.tables, e3]; exact .refl _
  · intro g hg
    obtain ⟨fr, e⟩ := Option.isSome_iff_exists.mp hg
    rw [(hs.frames g fr e).1]; exact hf
  · intro t h'; rw [ht t] at h'; cases h'
  · intro c h'; rw [hs.cells c] at h'; cases h'
  · intro t h'; rw [ht t] at h'; cases h'
  · intro c h'; rw [hs.cells c] at h'; cases h'
  · rw [e1]; exact h.positive
  · rw [e2]; exact h.nonempty
  · intro h'; exact absurd e3 h'

/-- Every loaded text is such a document. -/
theorem import_tabled (t : List Char) :
    ∃ s d, (Store.newStore.bind fun s => s.importPlainText t) = some s ∧ d.id = 1 ∧
      Tabled s d 2 ((linesFrom 2 (Store.splitLines (unixText t))).map .para) ∧ Placed s (linesFrom 2 (Store.splitLines (unixText t))) := by
  obtain ⟨s, e1, e2, e3, e4⟩ := newStore_flat
  obtain ⟨s1, g1, g2, g3, g4⟩ := e2.import e3 t
  have hf : s.next "frame" = 2 := by cases e1; rfl
  have hb : s.next "block" = 2 := by cases e1; rfl
  have ht : ∀ i, s.tables i = none := by cases e1; intro i; rfl
  have hi := tame_import g1
  have ho : Orphans s := by
    cases e1
    intro g x hx
    have hx : (if g = 1 then _ else if g = 1 then _ else if g = 1 then _ else none) = some x := hx
    split at hx
    · cases hx; rfl
    · cases hx
  rw [hf, hb] at g2
  rw [hf] at g3 hi
  rw [hb] at g4
  refine ⟨s1, _, by rw [e1, Option.bind_some]; exact g1, rfl, g2.tabled g3 (by rw [hi.1]; exact ht) ⟨by decide, by rw [hi.2.1]; decide⟩ ?_, g4⟩
  exact hi.2.2 ho 2

end Verif

import Verif.Lemmas.LoadOver
import Verif.Lemmas.TableFree
import Verif.Props.PlainText
import Verif.Props.DeleteTabled
import Verif.Model.Stats
import Verif.Model.TableCommands
import Verif.Spec.Tables
/- C107: loading a plain text over any document. -/
namespace Verif
open Store
variable {s s' : Store} {d : Document}

theorem joinLines_is_joinNl (ls : List (List Char)) : joinLines ls = joinNl ls := by
  cases ls with
  | nil => rfl
  | cons l ls =>
    induction ls generalizing l with
    | nil => simp [joinLines, joinNl]
    | cons m ls ih => rw [joinNl, ← ih]; simp [joinLines]; simp

/-- **C107 (partial).** A plain text loaded over a document, whatever it holds (tables, lists, images, nested frames): the text of the document is the
loaded one, the counts of its characters and paragraphs are right, one frame is left, and everything else of the document, its tables too,
stays.  Full statement: the tables go as well; see `C107_tables_stay_fails`.  That loading succeeds is in `C107_load_succeeds`. -/
theorem C107_load_over_partial (hid : s.docId = some d.id) (hd : s.documents d.id = some d) (hn : d.frames.Nodup)
    (hf : ∀ g ∈ d.frames, (s.frames g).isSome) {t : List Char} (h : s.importPlainText t = some s') :
    ∃ f lines, LinesOf (unixText t) lines ∧ s'.exportPlainText = some (unixText t) ∧ s'.docId = some d.id ∧
      s'.documents d.id = some { d with frames := [f], characterCount := (lines.map List.length).sum, blockCount := lines.length } ∧
      s'.tables = s.tables := by
  have ht := (tame_import h).1
  unfold Store.importPlainText at h
  rw [hid, unixText_eq, Option.bind_some] at h
  simp only [Option.bind_eq_some_iff, Option.map_eq_some_iff] at h
  obtain ⟨s1, h1, ⟨fid, s2⟩, h2, ⟨ids, n, s3⟩, h3, fr, h4, doc, h5, rfl⟩ := h
  have hdf : s.docFrames d.id = d.frames := by simp [Store.docFrames, hd]
  rw [hdf] at h1
  obtain ⟨a1, a2⟩ := removeFrames_doc _ hd hn hf h1
  have a1 : s1.documents d.id = some { d with frames := [] } := by
    rw [a1, List.filter_eq_nil_iff.mpr]
    intro i hi; simp [hi]
  have hb : s2.documents d.id = some { d with frames := [fid] } ∧ s2.roots = s1.roots := by
    unfold Store.createFrame Store.insertNewFrame at h2
    rw [if_pos rfl] at h2
    simp only [Option.bind_some, Option.map_eq_some_iff, Prod.mk.injEq] at h2
    obtain ⟨s4, h6, hfid, rfl⟩ := h2
    unfold Store.setDocFrames at h6
    split at h6
    · split at h6
      · rename_i x hx
        cases h6
        have hx : s1.documents d.id = some x := hx
        rw [a1] at hx
        cases hx
        refine ⟨?_, rfl⟩
        simp [Store.docFrames, insertAtIndex, Store.nextId, a1, ← hfid]
      · rename_i hx
        have hx : s1.documents d.id = none := hx
        rw [a1] at hx; cases hx
    · cases h6
  obtain ⟨r1, r2, r3, r4, r5⟩ := importLines_text _ h3
  have hdoc : s3.documents d.id = some { d with frames := [fid] } := by rw [r2]; exact hb.1
  have h5 : s3.documents d.id = some doc := h5
  rw [hdoc] at h5
  cases h5
  have hroots : s3.roots = s.roots := r1.trans (hb.2.trans a2)
  have hd' : ((s3.updateFrame { fr with childOrder := ids.map fun i : Nat => (i : Int) }).updateDocument
      { d with frames := [fid], characterCount := n, blockCount := (splitLines (unixText t)).length }).documents d.id =
      some { d with frames := [fid], characterCount := ((splitLines (unixText t)).map List.length).sum, blockCount := (splitLines (unixText t)).length } := by
    have : (s3.updateFrame { fr with childOrder := ids.map fun i : Nat => (i : Int) }).documents d.id = some { d with frames := [fid] } := hdoc
    simp [Store.updateDocument, this, keepDoc, r4]
  have hi' : ∀ x : Document, ((s3.updateFrame { fr with childOrder := ids.map fun i : Nat => (i : Int) }).updateDocument x).docId = some d.id := by
    intro x
    rw [← hid]
    show ((s3.roots 1).bind fun r => (s3.roots r.id).bind fun r' => if r'.document = 0 then none else some r'.document) = _
    rw [hroots]; rfl
  refine ⟨fid, splitLines (unixText t), linesOf_splitLines _, ?_, hi' _, hd', ht⟩
  have hrope : s3.rope = unixText t := by
    rw [r3]
    show [] ++ behind true _ = _
    rw [List.nil_append, behind, if_pos rfl, joinLines_is_joinNl, joinNl_splitLines]
  unfold Store.exportPlainText
  rw [hi', Option.bind_some]
  have hlen : (Store.docFrames ((s3.updateFrame { fr with childOrder := ids.map fun i : Nat => (i : Int) }).updateDocument
      { d with frames := [fid], characterCount := n, blockCount := (splitLines (unixText t)).length }) d.id).length = 1 := by
    unfold Store.docFrames; rw [hd']; rfl
  unfold ropeFlatTextIfSimple
  rw [hlen, if_neg (by simp), if_neg]
  · show some s3.rope = _
    rw [hrope]
  · have := r5 rfl
    show ¬ (s3.blockOffsets.entries.any fun e => e.1.isTable) = true
    rw [this]; simp

/-- **C107.** When everything that frames and documents list exists (C91), loading a plain text succeeds. -/
theorem C107_load_succeeds (hid : s.docId = some d.id) (hd : s.documents d.id = some d) (hn : d.frames.Nodup)
    (hb : ∀ g fr, s.frames g = some fr → ∀ b ∈ fr.blocks, (s.blocks b).isSome)
    (hf : ∀ i d, s.documents i = some d → ∀ g ∈ d.frames, (s.frames g).isSome) (t : List Char) : (s.importPlainText t).isSome := by
  unfold Store.importPlainText
  rw [hid, Option.bind_some]
  have hdf : s.docFrames d.id = d.frames := by simp [Store.docFrames, hd]
  rw [hdf]
  obtain ⟨s1, e1, h1⟩ := removeFrames_runs d.frames ⟨hb, hf⟩
  obtain ⟨a1, _⟩ := removeFrames_doc _ hd hn (hf _ _ hd) e1
  obtain ⟨g, s2, e2, h2, h2'⟩ := createFrame_runs h1 d.id
  rw [e1, Option.bind_some, e2, Option.bind_some]
  dsimp only
  obtain ⟨r, e3, h3, h4⟩ := importLines_runs (f := g) (splitLines (replaceCr (replaceCrLf t))) (s := s2.withText ropeReset) (first := true) (pos := 0)
    ⟨h2.blocks, h2.frames⟩
  have hdoc := (importLines_text (f := g) _ e3).2.1
  rw [e3, Option.bind_some]
  obtain ⟨fr, e4⟩ := Option.isSome_iff_exists.mp (h4 g h2')
  rw [e4, Option.bind_some, Option.isSome_map]
  show (r.2.2.documents d.id).isSome
  rw [hdoc]
  show (s2.documents d.id).isSome
  unfold Store.createFrame Store.insertNewFrame at e2
  rw [if_pos rfl] at e2
  simp only [Option.bind_some, Option.map_eq_some_iff, Prod.mk.injEq] at e2
  obtain ⟨s4, h6, _, rfl⟩ := e2
  unfold Store.setDocFrames at h6
  split at h6
  · split at h6
    · cases h6; simp
    · rename_i hx
      have hx : s1.documents d.id = none := hx
      rw [a1] at hx; cases hx
  · cases h6

theorem Tabled.frameExists {f : Nat} {items : List SItem} (h : Tabled s d f items) {g : Nat} (hg : g ∈ d.frames) : (s.frames g).isSome := by
  obtain ⟨rest, h1, h2⟩ := h.frames
  have hp : d.frames.Perm (f :: tableFrames items) := by rw [h1]; exact h2.cons _
  rw [hp.mem_iff] at hg
  rcases List.mem_cons.mp hg with rfl | hg
  · obtain ⟨fr, e, _⟩ := h.frame; rw [e]; rfl
  · unfold tableFrames at hg
    obtain ⟨u, hu, hg⟩ := List.mem_flatMap.mp hg
    have hs := h.table u hu
    rcases List.mem_cons.mp hg with rfl | hg
    · obtain ⟨fr, e, _⟩ := hs.anchor; rw [e]; rfl
    · obtain ⟨c, hc, rfl⟩ := List.mem_map.mp hg
      obtain ⟨_, _, _, fr, e, _⟩ := hs.cell c hc
      rw [e]; rfl

theorem Tabled.listedExists {f : Nat} {items : List SItem} (h : Tabled s d f items) {g : Nat} {fr : Frame} (hg : s.frames g = some fr) :
    ∀ b ∈ fr.blocks, (s.blocks b).isSome := by
  obtain ⟨L, hC, _⟩ := h.content
  have key : ∀ p ∈ flowParas items, (s.blocks p.id).isSome := fun p hp => by
    obtain ⟨b, e, _⟩ := hC.block p hp; rw [e]; rfl
  have hm := h.onlyFrames g (by rw [hg]; rfl)
  intro b hb
  rcases List.mem_cons.mp hm with rfl | hm
  · obtain ⟨fr', e, _, _, _, _, _, hp⟩ := h.frame
    rw [hg] at e; cases e
    obtain ⟨p, hpm, rfl⟩ := List.mem_map.mp (hp.mem_iff.mp hb)
    exact key p (mem_flowParas.mpr (.inl hpm))
  · unfold tableFrames at hm
    obtain ⟨u, hu, hm⟩ := List.mem_flatMap.mp hm
    have hs := h.table u hu
    rcases List.mem_cons.mp hm with rfl | hm
    · obtain ⟨fr', e, _, _, hb', _⟩ := hs.anchor
      rw [hg] at e; cases e
      rw [hb'] at hb; cases hb
    · obtain ⟨c, hc, rfl⟩ := List.mem_map.mp hm
      obtain ⟨_, _, _, fr', e, _, _, _, _, hp⟩ := hs.cell c hc
      rw [hg] at e; cases e
      obtain ⟨p, hpm, rfl⟩ := List.mem_map.mp (hp.mem_iff.mp hb)
      exact key p (mem_flowParas.mpr (.inr ⟨u, hu, List.mem_flatMap.mpr ⟨c, hc, hpm⟩⟩))

/-- **C107, documents with tables.** Over the only document of a store, made of paragraphs and tables, loading succeeds and gives the loaded text; only
the tables stay. -/
theorem C107_load_over_tables {f : Nat} {items : List SItem} (h : Tabled s d f items) (hone : ∀ i x, s.documents i = some x → i = d.id)
    (t : List Char) :
    ∃ s' f' lines, s.importPlainText t = some s' ∧ LinesOf (unixText t) lines ∧ s'.exportPlainText = some (unixText t) ∧ s'.docId = some d.id ∧
      s'.documents d.id = some { d with frames := [f'], characterCount := (lines.map List.length).sum, blockCount := lines.length } ∧
      s'.tables = s.tables := by
  obtain ⟨rest, h1, h2⟩ := h.frames
  have hp : d.frames.Perm (f :: tableFrames items) := by rw [h1]; exact h2.cons _
  have hn := hp.nodup_iff.mpr h.distinct.1
  obtain ⟨s', e⟩ := Option.isSome_iff_exists.mp (C107_load_succeeds h.docIdOf h.document hn (fun g fr hg => h.listedExists hg) (fun i x hx => by
    have := hone i x hx
    subst this
    rw [h.document] at hx; cases hx
    exact fun g hg => h.frameExists hg) t)
  obtain ⟨f', lines, r⟩ := C107_load_over_partial h.docIdOf h.document hn (fun g hg => h.frameExists hg) e
  exact ⟨s', f', lines, e, r⟩

/-- A document with a table meets the hypotheses. -/
example : ∃ s d t s', Tabled s d 2 ([⟨2, [('a', none), ('b', none)], {}⟩].map SItem.para ++ [t].map SItem.table) ∧
    s.importPlainText "new".toList = some s' ∧ s'.exportPlainText = some "new".toList := by
  obtain ⟨s, d, t, e, h, _⟩ := rowSample_tabled
  have hk : (rowSample ['z']).map (fun s => s.documents.keys) = some [1] := by decide +kernel
  rw [e, Option.map_some, Option.some.injEq] at hk
  have hm : ∀ i x, s.documents i = some x → i = 1 := fun i x hx => by
    have : i ∈ s.documents.keys := (s.documents.mem i).mpr (by rw [hx]; rfl)
    rw [hk] at this; simpa using this
  obtain ⟨s', _, _, h1, _, h2, _⟩ := C107_load_over_tables h (fun i x hx => (hm i x hx).trans (hm _ _ h.document).symm) "new".toList
  exact ⟨s, d, t, s', h, h1, h2⟩

/-- **C107 with tables is false.** A table is made in "ab", then "new" is loaded: the document is "new", but still counts a table. -/
theorem C107_tables_stay_fails : ∃ (s s1 s2 : Store) (t : Nat) (pos : Int) (snap : Snapshot),
    (Store.newStore.bind fun s => s.importPlainText "ab".toList) = some s ∧ s.insertTable 2 2 1 2 = some (s1, t, pos, snap) ∧
    s1.importPlainText "new".toList = some s2 ∧ s2.exportPlainText = some "new".toList ∧
    s2.documentStats.map DocStats.tables = some 1 ∧ s2.documentStats.map DocStats.frames = some 1 := by
  refine ⟨_, _, _, _, _, _, rfl, rfl, rfl, ?_, ?_, ?_⟩ <;> decide +kernel

end Verif

import Verif.Lemmas.Frames
import Verif.Props.Store
import Verif.Model.ExportHtml
import Verif.Spec.Html
/-
C60: inserting a frame at the caret.
-/
namespace Verif
variable {s : Store} {d : Document} {f : Nat} {ps L R : List SPara} {p : SPara}
open Store

/-- **C60.** `insert_frame` with the caret in the paragraph `p` adds one frame holding one empty paragraph, right
after `p` in reading order.  Every paragraph, every text and format, the lists and the tables stay as they are;
the document counts one paragraph more.  Full statement: the same with nested frames and tables, with stored
positions that are wrong, and with the new paragraph part of the text; the last is false, see
`C60_not_in_text_fails`. -/
theorem C60_insert_frame_partial (h : Flat s d f (L ++ p :: R)) (hp : Placed s (L ++ p :: R))
    (hg : ∀ g, (s.frames g).isSome → g < s.next "frame") (x : Nat)
    (h1 : charsBefore (paras L) ≤ x) (h2 : x ≤ charsBefore (paras L) + p.chars.length) :
    ∃ s' g b, s.insertFrame x = some (s', g, s.snapshot) ∧
      s.frames g = none ∧ s.blocks b = none ∧
      s'.flowBlocks d.id = some ((L ++ [p]).map SPara.id ++ b :: R.map SPara.id) ∧
      s'.documents d.id = some { d with frames := [f, g], blockCount := d.blockCount + 1 } ∧
      (s'.frames g).map (fun fr => (fr.parentFrame, fr.blocks, fr.table)) = some (some f, [b], none) ∧
      blockContent s'.text b = some [] ∧
      s'.blocks b = some { id := b, documentPosition := x } ∧ (∀ i, i ≠ b → s'.blocks i = s.blocks i) ∧
      s'.text = s.text ∧ s'.formatRuns = s.formatRuns ∧ s'.blockImages = s.blockImages ∧
      s'.lists = s.lists ∧ s'.tables = s.tables ∧ s'.tableCells = s.tableCells := by
  obtain ⟨fr, hf, hfid, hco, _⟩ := h.frame
  obtain ⟨s', e, e1, e2, e3, e4, e5, e6, e7, e8, e9, _⟩ := h.insertFrame hp hf hg x h1 h2
  have hfg : f < s.next "frame" := hg f (by rw [hf]; rfl)
  have hne : ¬ s.next "frame" = f := by omega
  have hsf : s.frames (s.next "frame") = none := by
    cases hc : s.frames (s.next "frame") with
    | none => rfl
    | some _ => have := hg (s.next "frame") (by rw [hc]; rfl); omega
  have hnb : s.next "block" ∉ (L ++ p :: R).map SPara.id := by
    intro hm
    obtain ⟨q, hq, hqe⟩ := List.mem_map.mp hm
    have := h.fresh q hq
    omega
  have hsb : s.blocks (s.next "block") = none := h.absent _ hnb
  refine ⟨s', s.next "frame", s.next "block", e, hsf, hsb, ?_, by rw [e1, if_pos rfl], ?_, ?_, by rw [e3, if_pos rfl],
    (fun i hi => by rw [e3, if_neg hi]), e4, e5, e6, e7, e8, e9⟩
  · have hf' : s'.frames f = some _ := (e2 f).trans (if_pos rfl)
    have hg' : s'.frames (s.next "frame") = some _ := ((e2 _).trans (if_neg hne)).trans (if_pos rfl)
    have hpos := IdMap.len_pos hf'
    unfold Store.flowBlocks Store.docFrames
    rw [e1, if_pos rfl]
    simp only [Option.map_some, Option.getD_some, List.head?_cons, Option.bind_some]
    unfold Store.flowIds
    obtain ⟨n, hn⟩ : ∃ n, s'.frames.len = n + 1 := ⟨s'.frames.len - 1, by omega⟩
    rw [hn]
    have hsub : s'.collectBlockIds (n + 1) (s.next "frame") = some [s.next "block"] := by
      unfold Store.collectBlockIds
      rw [hg', Option.bind_some]
      simp only [mapOpt]
      have hb : 0 < s.next "block" := by
        have := h.fresh p (by simp); omega
      rw [if_neg (by simp), if_pos (by omega)]
      simp
    unfold Store.collectBlockIds
    rw [hf', Option.bind_some]
    simp only
    rw [if_neg (by simp)]
    have happ : ∀ (k : Int → Option (List Nat)) (a b : List Int) (x y : List (List Nat)),
        mapOpt k a = some x → mapOpt k b = some y → mapOpt k (a ++ b) = some (x ++ y) := by
      intro k a b x y ha hb
      induction a generalizing x with
      | nil => simp only [mapOpt, Option.some.injEq] at ha; subst ha; simpa using hb
      | cons u a ih =>
        simp only [mapOpt, Option.bind_eq_some_iff, Option.map_eq_some_iff] at ha
        obtain ⟨v, hv, z, hz, rfl⟩ := ha
        simp only [List.cons_append, mapOpt, hv, Option.bind_some, ih z hz, Option.map_some]
    have hflat : ∀ M : List SPara, (M.map fun q => [q.id]).flatten = M.map SPara.id := by
      intro M; induction M with
      | nil => rfl
      | cons q M ih => simp [ih]
    have key : ∀ k : Int → Option (List Nat), (∀ e : Int, 0 < e → k e = some [e.toNat]) →
        k (-((s.next "frame" : Nat) : Int)) = some [s.next "block"] →
        (mapOpt k ((L ++ [p]).map (fun q => (q.id : Int)) ++ -((s.next "frame" : Nat) : Int) ::
          R.map fun q => (q.id : Int))).map List.flatten =
        some ((L ++ [p]).map SPara.id ++ s.next "block" :: R.map SPara.id) := by
      intro k k1 k2
      have hps : ∀ M : List SPara, (∀ q ∈ M, q ∈ L ++ p :: R) →
          mapOpt k (M.map fun q => (q.id : Int)) = some (M.map fun q => [q.id]) := by
        intro M hM
        apply mapOpt_map
        intro q hq
        have := h.positive q (hM q hq)
        rw [k1 _ (by omega)]
        simp
      rw [happ _ _ _ _ ([s.next "block"] :: R.map fun q => [q.id]) (hps (L ++ [p]) (by
        intro q hq
        simp only [List.mem_append, List.mem_cons, List.not_mem_nil, or_false] at hq ⊢
        exact hq.elim .inl fun e => .inr (.inl e))) ?_]
      · simp only [Option.map_some, List.flatten_append, List.flatten_cons, hflat]
        simp
      · simp only [mapOpt]
        rw [k2, Option.bind_some, hps R (by intro q hq; simp [hq])]
        rfl
    refine key _ ?_ ?_
    · intro e he
      exact if_pos he
    · rw [if_neg (by omega), if_pos (by omega), show (- -((s.next "frame" : Nat) : Int)).toNat = s.next "frame" by omega,
        hg', Option.bind_some]
      exact hsub
  · rw [e2, if_neg hne, if_pos rfl]; rfl
  · rw [e4]
    exact blockContent_absent h.text (by
      intro hm
      obtain ⟨m, hm1, hm2⟩ := List.mem_map.mp hm
      simp only [paras, List.mem_map] at hm1
      obtain ⟨q, hq, rfl⟩ := hm1
      have hm3 : q.id = s.next "block" := by simpa using hm2
      exact hnb (hm3 ▸ List.mem_map_of_mem hq))

/-- Undo of it gives back exactly the document of before, whatever happened in between; redo inserts the frame again,
under new ids. -/
theorem C60_undo_partial (h : Flat s d f ps) {x : Int} {s' : Store} {g : Nat} {snap : Snapshot}
    (e : s.insertFrame x = some (s', g, snap)) (a : Store) (hn : s.next "block" ≤ a.next "block") :
    SameContent (a.undoFrame snap) s ∧ Flat (a.undoFrame snap) d f ps := by
  have hs : snap = s.snapshot := by
    unfold Store.insertFrame at e
    simp only [Option.bind_eq_some_iff] at e
    obtain ⟨_, _, _, _, _, _, ⟨_, _⟩, _, _, _, ⟨_, _⟩, _, _, _, e⟩ := e
    simp only [Option.some.injEq, Prod.mk.injEq] at e
    exact e.2.2.symm
  subst hs
  have hsame : SameContent (a.undoFrame s.snapshot) s := (C27_undo_snapshot s a).1
  exact ⟨hsame, h.same_content hsame hn⟩

/-- The hypotheses are met: the caret in the first of two paragraphs. -/
example : ∃ (s : Store) (d : Document) (ps : List SPara), Flat s d 2 ps ∧ Placed s ps ∧
    (∀ g, (s.frames g).isSome → g < s.next "frame") ∧ s.exportPlainText = some "ab\ncd".toList ∧
    ((s.insertFrame 1).bind fun r => r.1.flowBlocks 1) = some [2, 4, 3] := by
  obtain ⟨s, e1, e2, e3, _⟩ := newStore_flat
  obtain ⟨s1, g1, g2, g3, g4⟩ := e2.import e3 "ab\ncd".toList
  have hf : s.next "frame" = 2 := by cases e1; rfl
  rw [hf] at g2 g3
  have hn : s1.next "frame" = 3 := by cases e1; cases g1; rfl
  refine ⟨s1, _, _, g2, g4, ?_, ?_, ?_⟩
  · intro g hg
    obtain ⟨fr, hfr⟩ := Option.isSome_iff_exists.mp hg
    have := (g3.frames g fr hfr).1
    omega
  · cases e1; cases g1; decide +kernel
  · cases e1; cases g1; decide +kernel

/-- The new paragraph is not where it was put: in "ab", "cd" a frame inserted after "ab" comes last in the plain
text, and text typed at the place where it should be is lost, though it is counted. -/
theorem C60_not_in_text_fails : ∃ (s s' : Store),
    (Store.newStore.bind fun s => s.importPlainText "ab\ncd".toList) = some s ∧
    (s.insertFrame 2).map (fun r => r.1) = some s' ∧ s'.flowBlocks 1 = some [2, 4, 3] ∧
    s'.exportPlainText = some "ab\ncd\n".toList ∧
    (s'.insertText ⟨3, 3, ['x']⟩).map (fun r => (r.1.exportPlainText, (r.1.documents 1).map Document.characterCount)) =
      some (some "ab\ncd\n".toList, some 5) := by
  refine ⟨_, _, rfl, rfl, ?_, ?_, ?_⟩ <;> decide +kernel

/-- A document with a frame in it is exported with the content of that frame twice: where it is and again at the
end.  The document has three paragraphs, the page four. -/
theorem C60_exported_twice_fails : ∃ (s s' : Store) (t : List Char),
    (Store.newStore.bind fun s => s.importPlainText "ab\ncd".toList) = some s ∧
    (s.insertFrame 2).map (fun r => r.1) = some s' ∧ (s'.documents 1).map Document.blockCount = some 3 ∧
    s'.exportHtml Store.showInt = some t ∧
    (readHtml t).map (fun page => page.map fun p => p.chars.map Prod.fst) =
      some ["ab".toList, [], "cd".toList, []] := by
  refine ⟨_, _, _, rfl, rfl, ?_, rfl, ?_⟩ <;> decide +kernel

end Verif

import Verif.Model.Frames
import Verif.Lemmas.ReplacePlaced
import Verif.Lemmas.FormattingUndo
/- Inserting a frame into a document of one frame. -/
namespace Verif
variable {s : Store} {d : Document} {f : Nat} {ps L R : List SPara} {p : SPara}
open Store

theorem IdMap.len_pos {α : Type} {m : IdMap α} {i : Nat} {v : α} (h : m i = some v) : 0 < m.len := by
  have : i ∈ m.keys := (m.mem i).mpr (by rw [h]; rfl)
  exact List.length_pos_of_mem this

theorem Shows.closestBlock (h : Shows s d ps) (A B : List SPara) (r : Int) (i : Nat) (x : Int)
    (hA : ∀ q ∈ A ++ p :: B, q ∈ ps) (h1 : r + charsBefore (paras A) ≤ x)
    (h2 : x ≤ r + charsBefore (paras A) + p.chars.length) :
    Store.closestBlock s.text x i (placed r (A ++ p :: B)) = some (i + A.length) := by
  induction A generalizing r i with
  | nil =>
    simp only [List.nil_append, placed, Store.closestBlock, charsBefore_paras_nil] at h1 h2 ⊢
    have hid : (p.entity r).id = p.id := rfl
    have hdp : (p.entity r).documentPosition = r := rfl
    have hpl : p.text.length = p.chars.length := by simp [SPara.text]
    rw [hid, hdp, h.charLength (hA p (by simp)), Option.bind_some, hpl, if_pos (by omega)]
    simp
  | cons q A ih =>
    simp only [List.cons_append, placed, Store.closestBlock]
    rw [charsBefore_paras_cons] at h1 h2
    have hid : (q.entity r).id = q.id := rfl
    have hdp : (q.entity r).documentPosition = r := rfl
    have hpl : q.text.length = q.chars.length := by simp [SPara.text]
    rw [hid, hdp, h.charLength (hA q (by simp)), Option.bind_some, hpl, if_neg (by push_cast at h1; omega)]
    rw [ih (r + (q.chars.length + 1)) (i + 1) (fun x hx => hA x (by simp at hx ⊢; right; exact hx))
      (by push_cast at h1; omega) (by push_cast at h2; omega)]
    simp only [List.length_cons]
    congr 1; omega

theorem charsBefore_paras_two (A B : List SPara) :
    charsBefore (paras (A ++ B)) = charsBefore (paras A) + charsBefore (paras B) := by
  induction A with
  | nil => rw [charsBefore_paras_nil]; simp
  | cons q A ih => rw [List.cons_append, charsBefore_paras_cons, charsBefore_paras_cons, ih]; omega

theorem placed_getLast (r : Int) (A : List SPara) (q : SPara) :
    (placed r (A ++ [q])).getLast? = some (q.entity (r + charsBefore (paras A))) := by
  rw [placed_append, placed, placed]
  simp

theorem Flat.findFrameAt (h : Flat s d f (L ++ p :: R)) (hp : Placed s (L ++ p :: R)) {fr : Frame}
    (hf : s.frames f = some fr) (x : Nat)
    (h1 : charsBefore (paras L) ≤ x) (h2 : x ≤ charsBefore (paras L) + p.chars.length) :
    s.findFrameAt x [f] = some (some (fr, L.length)) := by
  have hsb : sortByKey Block.documentPosition (s.getBlocks (s.frameBlocks f)) = placed 0 (L ++ p :: R) := by
    rw [← h.sortedBlocks_placed hp]
    unfold Store.sortedBlocks
    rw [h.docFrames]
    simp
  unfold Store.findFrameAt
  rw [hf, hsb]
  simp only
  have hhead : ∃ q, (placed 0 (L ++ p :: R)).head? = some (SPara.entity q 0) := by
    cases L with
    | nil => exact ⟨p, rfl⟩
    | cons q L => exact ⟨q, rfl⟩
  obtain ⟨q0, hq0⟩ := hhead
  have hlast : ∃ A q, L ++ p :: R = A ++ [q] := by
    have hne : L ++ p :: R ≠ [] := by simp
    exact ⟨_, _, (List.dropLast_concat_getLast hne).symm⟩
  obtain ⟨A, q, hA⟩ := hlast
  have hgl : (placed 0 (L ++ p :: R)).getLast? = some (q.entity (charsBefore (paras A))) := by
    rw [hA, placed_getLast]; simp
  rw [hq0, hgl]
  simp only
  rw [show (q.entity (charsBefore (paras A) : Int)).id = q.id from rfl,
    h.toShows.charLength (p := q) (by rw [hA]; simp), Option.bind_some]
  have hle : charsBefore (paras L) + p.chars.length ≤ charsBefore (paras A) + q.chars.length := by
    have e1 : charsBefore (paras (L ++ p :: R)) = charsBefore (paras (A ++ [q])) := by rw [hA]
    rw [charsBefore_paras_two, charsBefore_paras_two, charsBefore_paras_cons, charsBefore_paras_cons,
      charsBefore_paras_nil] at e1
    omega
  have hpl : q.text.length = q.chars.length := by simp [SPara.text]
  rw [if_pos (by
    refine ⟨?_, ?_⟩
    · show (x : Int) ≥ 0; omega
    · show (x : Int) ≤ (charsBefore (paras A) : Int) + (q.text.length : Nat); rw [hpl]; omega)]
  rw [h.toShows.closestBlock L R 0 0 x (fun y hy => hy) (by omega) (by omega)]
  simp

theorem insertIdx_length_append {α : Type} (a b : List α) (x : α) : (a ++ b).insertIdx a.length x = a ++ x :: b := by
  induction a with
  | nil => simp
  | cons y a ih => simp [ih]

theorem next_insert_other {a b : String} (h : a ≠ b) (s : Store) : (s.nextId a).2.next b = s.next b := by
  have h' : ¬ b = a := fun e => h e.symm
  simp [Store.nextId, Store.next, h']

theorem Flat.insertFrame (h : Flat s d f (L ++ p :: R)) (hp : Placed s (L ++ p :: R)) {fr : Frame}
    (hf : s.frames f = some fr) (hg : ∀ g, (s.frames g).isSome → g < s.next "frame") (x : Nat)
    (h1 : charsBefore (paras L) ≤ x) (h2 : x ≤ charsBefore (paras L) + p.chars.length) :
    ∃ s', s.insertFrame x = some (s', s.next "frame", s.snapshot) ∧
      (∀ i, s'.documents i = if i = d.id then some { d with
        frames := [f, s.next "frame"], blockCount := d.blockCount + 1 } else s.documents i) ∧
      (∀ i, s'.frames i = if i = f then some { fr with
          childOrder := (L ++ [p]).map (fun q => (q.id : Int)) ++
            -((s.next "frame" : Nat) : Int) :: R.map (fun q => (q.id : Int)) }
        else if i = s.next "frame" then some (⟨s.next "frame", some f, [s.next "block"],
          [((s.next "block" : Nat) : Int)], none, none, none, none, none, none, none, none, none, none, none⟩ : Frame) else s.frames i) ∧
      (∀ i, s'.blocks i = if i = s.next "block" then some { id := s.next "block", documentPosition := x }
        else s.blocks i) ∧
      s'.text = s.text ∧ s'.formatRuns = s.formatRuns ∧ s'.blockImages = s.blockImages ∧ s'.lists = s.lists ∧
      s'.tables = s.tables ∧ s'.tableCells = s.tableCells ∧ s'.roots = s.roots ∧ s'.resources = s.resources := by
  have hfid : fr.id = f := by
    obtain ⟨fr', g1, g2, _⟩ := h.frame; rw [hf] at g1; cases g1; exact g2
  have hco : fr.childOrder = (L ++ p :: R).map fun q => (q.id : Int) := by
    obtain ⟨fr', g1, _, g3, _⟩ := h.frame; rw [hf] at g1; cases g1; exact g3
  have hfg : f < s.next "frame" := hg f (by rw [hf]; rfl)
  have hne : ¬ s.next "frame" = f := by omega
  have hne' : ¬ f = s.next "frame" := by omega
  generalize hG : s.next "frame" = g at *
  have hcf : s.createFrame { parentFrame := some f } d.id (-1) = some (g, { s with
      counters := (s.nextId "frame").2.counters
      frames := s.frames.insert g { id := g, parentFrame := some f }
      documents := s.documents.insert d.id { d with frames := [f, g] } }) := by
    unfold Store.createFrame Store.insertNewFrame
    rw [if_pos rfl]
    simp only [Option.bind_some]
    have hdf : Store.docFrames { (s.nextId "frame").2 with
        frames := (s.nextId "frame").2.frames.insert (s.nextId "frame").1
          { id := (s.nextId "frame").1, parentFrame := some f } } d.id = [f] := by
      simp [Store.docFrames, Store.nextId, h.document, h.frames]
    have hins : Store.insertAtIndex [f] (-1) (s.nextId "frame").1 = [f, g] := by
      unfold Store.insertAtIndex; rw [if_neg (by omega), ← hG]; rfl
    unfold Store.setDocFrames
    rw [hdf, hins, if_pos]
    · have : (s.nextId "frame").1 = g := hG
      simp only [this]
      simp only [Store.nextId, h.document, Option.map_some]
    · have : (s.nextId "frame").1 = g := hG
      simp only [this]
      simp [Store.nextId, Store.next, hf]
      rw [← hG]
      simp [Store.next]
      by_cases hc : f = (s.counters "frame").getD 1 <;> simp [hc]
  generalize hs1 : ({ s with
      counters := (s.nextId "frame").2.counters
      frames := s.frames.insert g { id := g, parentFrame := some f }
      documents := s.documents.insert d.id { d with frames := [f, g] } } : Store) = s1 at hcf
  have hs1g : s1.frames g = some { id := g, parentFrame := some f } := by rw [← hs1]; simp
  have hs1b : s1.next "block" = s.next "block" := by
    rw [← hs1]
    exact next_insert_other (a := "frame") (b := "block") (by decide) s
  have hcb := createBlock_new (s := s1) (f := g) (blk := { documentPosition := (x : Int) }) hs1g rfl (by
    intro i hi; cases hi)
  rw [hs1b] at hcb
  generalize hB : s.next "block" = B at *
  have hdoc := h.document
  have hdid := h.docId
  unfold Store.insertFrame
  rw [hdid, Option.bind_some, hdoc, Option.bind_some]
  simp only [h.docFrames]
  rw [h.findFrameAt hp hf x h1 h2, Option.bind_some]
  simp only [Option.map_some, hfid]
  rw [hcf, Option.bind_some]
  simp only [hs1g, Option.bind_some]
  rw [hcb, Option.bind_some]
  simp only [List.nil_append]
  have hco' : fr.childOrder.length = L.length + (R.length + 1) := by rw [hco]; simp
  have hins : fr.childOrder.insertIdx (min (min (L.length + 1) fr.childOrder.length) fr.childOrder.length) (-(g : Int)) =
      (L ++ [p]).map (fun q => (q.id : Int)) ++ -(g : Int) :: R.map fun q => (q.id : Int) := by
    have : min (min (L.length + 1) fr.childOrder.length) fr.childOrder.length = L.length + 1 := by omega
    rw [this, hco]
    have e : (L ++ p :: R).map (fun q => (q.id : Int)) =
        (L ++ [p]).map (fun q => (q.id : Int)) ++ R.map fun q => (q.id : Int) := by simp
    rw [e]
    have hl : L.length + 1 = ((L ++ [p]).map (fun q => (q.id : Int))).length := by simp
    rw [hl, insertIdx_length_append]
  simp only [Store.linkFrame, hfid]
  have hsf : ∀ (s2 : Store), s2.frames = s1.frames.insert g { id := g, parentFrame := some f, blocks := [B] } →
      (s2.updateFrame { id := g, parentFrame := some f, childOrder := [(B : Int)] }).frames f = some fr := by
    intro s2 h2
    simp only [Store.updateFrame, IdMap.insert_get, if_neg hne', h2]
    rw [← hs1]
    simp [hne', hf]
  rw [hsf _ rfl]
  simp only [Option.map_some, Option.bind_some, hins, Option.isNone_some, Bool.false_eq_true, if_false]
  refine ⟨_, rfl, ?_, ?_, ?_, ?_, ?_, ?_, ?_, ?_, ?_, ?_, ?_⟩
  · intro i
    simp only [Store.updateDocument, Store.updateFrame, IdMap.insert_get]
    by_cases hi : i = d.id
    · rw [if_pos hi, if_pos hi, ← hs1]
      simp [Store.keepDoc, h.document]
    · rw [if_neg hi, if_neg hi, ← hs1]
      simp [hi]
  · intro i
    simp only [Store.updateDocument, Store.updateFrame, IdMap.insert_get, hfid]
    by_cases hi : i = f
    · rw [if_pos hi, if_pos hi, ← hs1]
      simp [Store.keepFrame, hne', hf]
    · rw [if_neg hi, if_neg hi]
      by_cases hi' : i = g
      · rw [if_pos hi', if_pos hi']
        simp [Store.keepFrame]
      · rw [if_neg hi', if_neg hi', if_neg hi', ← hs1]
        simp [hi']
  · intro i
    simp only [Store.updateDocument, Store.updateFrame, IdMap.insert_get]
    by_cases hi : i = B
    · rw [if_pos hi, if_pos hi]
    · rw [if_neg hi, if_neg hi, ← hs1]
  all_goals (rw [← hs1]; rfl)

end Verif

import Verif.Lemmas.Copy
import Verif.Lemmas.DocText
import Verif.Lemmas.TableDelete
/- Copying in documents with tables. -/
namespace Verif
open Store

variable {s : Store} {d : Document} {f : Nat} {items : List SItem} {p : SPara} {t : STable} {ps : List SPara}

/-! ### The blocks below the frames -/

theorem below_leaf {g : Nat} {fr : Frame} {ps : List SPara} (k : Nat) (hf : s.frames g = some fr)
    (hc : fr.childOrder = ps.map fun p => (p.id : Int)) (hne : ps ≠ []) (hpos : ∀ p ∈ ps, 0 < p.id) :
    ∃ l, s.blocksBelow (k + 1) g = some l ∧ l.map Prod.fst = ps.map SPara.id := by
  refine ⟨ps.map fun p => (p.id, g), ?_, by simp [Function.comp_def]⟩
  unfold Store.blocksBelow
  rw [hf]
  dsimp only
  rw [if_neg (by rw [hc]; simpa using hne), hc, mapOpt_map (h := fun p : SPara => [(p.id, g)])]
  · rw [Option.map_some, Option.some.injEq]
    clear hf hc hne hpos
    induction ps with
    | nil => rfl
    | cons p ps ih => simp only [List.map_cons, List.flatten_cons, ih]; simp
  · intro p hp
    have := hpos p hp
    rw [if_pos (by omega)]
    simp

theorem mapOpt_some {α β : Type} {g : α → Option β} {P : α → β → Prop} {l : List α} (h : ∀ x ∈ l, ∃ y, g x = some y ∧ P x y) :
    ∃ ys, mapOpt g l = some ys ∧ InTurn P l ys := by
  have := InTurn.mapOpt (R := P) (u := g) (v := id) (l := l) h
  simpa using this

theorem Arranged.below_cell (h : Arranged s d f items) (ht : t ∈ tablesOf items) {c : SCell} (hc : c ∈ t.cells) (k : Nat) :
    ∃ l, s.blocksBelow (k + 1) c.frame = some l ∧ l.map Prod.fst = c.paras.map SPara.id := by
  obtain ⟨c1, c2, c3, fr2, c4, c5, c6, c7, c8, c9⟩ := (h.table t ht).cell c hc
  refine below_leaf k c4 c8 c3 fun p hp => h.positive p (mem_flowParas.mpr (.inr ⟨t, ht, ?_⟩))
  exact List.mem_flatMap.mpr ⟨c, hc, hp⟩

theorem inTurn_flatten {α : Type} {l : List α} {ys : List (List (Nat × Nat))} {v : α → List SPara}
    (h : InTurn (fun a y => y.map Prod.fst = (v a).map SPara.id) l ys) : ys.flatten.map Prod.fst = (l.flatMap v).map SPara.id := by
  induction l generalizing ys with
  | nil => cases ys with
    | nil => rfl
    | cons y ys => exact h.elim
  | cons a l ih => cases ys with
    | nil => exact h.elim
    | cons y ys =>
      rw [List.flatten_cons, List.flatMap_cons, List.map_append, List.map_append, h.1, ih h.2]

theorem Arranged.below_main (h : Arranged s d f items) :
    ∃ l, s.blocksBelow (s.frames.len + 1) f = some l ∧ l.map Prod.fst = (flowParas items).map SPara.id := by
  obtain ⟨fr, h1, h2, h3, h4, h5, h6, h7⟩ := h.frame
  have hlen : 0 < s.frames.len := by
    have : f ∈ s.frames.keys := (s.frames.mem f).mpr (by rw [h1]; rfl)
    unfold IdMap.len
    exact List.length_pos_of_mem this
  obtain ⟨k, hk⟩ : ∃ k, s.frames.len = k + 1 := ⟨s.frames.len - 1, by omega⟩
  have hne : items ≠ [] := by
    intro e; have := h.nonempty; rw [e] at this; exact this rfl
  rw [hk]
  unfold Store.blocksBelow
  rw [h1]
  dsimp only
  rw [if_neg (by rw [h6]; simpa using hne), h6]
  rw [← mapOpt_comp]
  obtain ⟨ys, y1, y2⟩ := mapOpt_some (l := items) (P := fun (it : SItem) (y : List (Nat × Nat)) => y.map Prod.fst = it.paras.map SPara.id)
    (g := fun it => (fun e : Int =>
          if e > 0 then some [(e.toNat, f)]
          else if e < 0 then
            match s.frames (-e).toNat with
            | none => some []
            | some sub =>
              match sub.table with
              | some t => (mapOpt (s.blocksBelow (k + 1)) (s.tableCellFrames t)).map List.flatten
              | none => s.blocksBelow (k + 1) (-e).toNat
          else some []) it.entry) (by
    intro it hit
    dsimp only
    generalize he : it.entry = e
    cases it with
    | para p =>
      have := h.positive p (mem_flowParas.mpr (.inl (mem_topParas.mpr hit)))
      simp only [SItem.entry] at he
      refine ⟨[(p.id, f)], ?_, rfl⟩
      rw [if_pos (by omega), ← he]
      simp
    | table t =>
      have ht := h.table t (mem_tablesOf.mpr hit)
      obtain ⟨fr', a1, a2, a3, a4, a5, a6⟩ := ht.anchor
      have hpos := (h.freshFrames t.anchor (by rw [a1]; rfl)).1
      simp only [SItem.entry] at he
      have he' : (-e).toNat = t.anchor := by omega
      obtain ⟨ys, y1, y2⟩ := mapOpt_some (l := t.cells) (g := fun c => s.blocksBelow (k + 1) c.frame)
        (P := fun (c : SCell) (y : List (Nat × Nat)) => y.map Prod.fst = c.paras.map SPara.id)
        fun c hc => h.below_cell (mem_tablesOf.mpr hit) hc k
      refine ⟨ys.flatten, ?_, inTurn_flatten y2⟩
      rw [if_neg (by omega), if_pos (by omega), he', a1]
      dsimp only
      rw [a6]
      dsimp only
      rw [ht.tableCellFrames, ← mapOpt_comp]
      have y1' : mapOpt (fun c : SCell => s.blocksBelow (k + 1) c.frame) t.cells = some ys := y1
      rw [y1']
      rfl)
  refine ⟨ys.flatten, ?_, inTurn_flatten y2⟩
  exact congrArg (Option.map List.flatten) y1

/-- The paragraphs in cells. -/
def cellParas (items : List SItem) : List SPara := (cellsOf items).flatMap SCell.paras

theorem Arranged.below_all (h : Arranged s d f items) :
    ∃ pairs, mapOpt (s.blocksBelow (s.frames.len + 1)) (s.docFrames d.id) = some pairs ∧
      (pairs.flatten.map Prod.fst).Perm ((flowParas items ++ cellParas items).map SPara.id) := by
  obtain ⟨rest, r1, r2⟩ := h.frames
  have hdf : s.docFrames d.id = f :: rest := by
    unfold Store.docFrames
    rw [h.document, Option.map_some, Option.getD_some, r1]
  obtain ⟨l, l1, l2⟩ := h.below_main
  -- the other frames, each with its paragraphs
  obtain ⟨v, hv⟩ : ∃ v : Nat → List Nat, ∀ g, v g = ((s.blocksBelow (s.frames.len + 1) g).getD []).map Prod.fst := ⟨_, fun _ => rfl⟩
  have hanchor : ∀ t ∈ tablesOf items, s.blocksBelow (s.frames.len + 1) t.anchor = some [] := by
    intro t ht
    obtain ⟨fr, a1, _, _, a2, a3, _⟩ := (h.table t ht).anchor
    unfold Store.blocksBelow
    rw [a1]
    dsimp only
    rw [if_pos a3]
    unfold Store.frameBlocks
    rw [a1, Option.map_some, Option.getD_some, a2]
    rfl
  have hsome : ∀ g ∈ rest, ∃ y, s.blocksBelow (s.frames.len + 1) g = some y ∧ y.map Prod.fst = v g := by
    intro g hg
    have hg := r2.mem_iff.mp hg
    obtain ⟨t, ht, hg⟩ := List.mem_flatMap.mp hg
    rcases List.mem_cons.mp hg with rfl | hg
    · exact ⟨[], hanchor t ht, by rw [hv, hanchor t ht]; rfl⟩
    · obtain ⟨c, hc, rfl⟩ := List.mem_map.mp hg
      obtain ⟨y, y1, y2⟩ := h.below_cell ht hc s.frames.len
      exact ⟨y, y1, by rw [hv, y1]; rfl⟩
  obtain ⟨ys, y1, y2⟩ := mapOpt_some hsome
  have hys : ys.flatten.map Prod.fst = rest.flatMap v := by
    clear y1 hsome r1 r2 hdf
    induction rest generalizing ys with
    | nil => cases ys with
      | nil => rfl
      | cons y ys => exact y2.elim
    | cons g gs ih => cases ys with
      | nil => exact y2.elim
      | cons y ys =>
        rw [List.flatten_cons, List.flatMap_cons, List.map_append, y2.1, ih _ y2.2]
  refine ⟨l :: ys, ?_, ?_⟩
  · rw [hdf, mapOpt, l1, Option.bind_some, y1]; rfl
  · rw [List.flatten_cons, List.map_append, l2, hys, List.map_append]
    refine List.Perm.append_left _ ((r2.flatMap_right v).trans (.of_eq ?_))
    unfold tableFrames cellParas cellsOf
    have hc : ∀ t ∈ tablesOf items, v t.anchor = [] ∧ ∀ c ∈ t.cells, v c.frame = c.paras.map SPara.id := by
      intro t ht
      refine ⟨by rw [hv, hanchor t ht]; rfl, fun c hc => ?_⟩
      obtain ⟨y, y1, y2⟩ := h.below_cell ht hc s.frames.len
      rw [hv, y1]; exact y2
    generalize tablesOf items = ts at hc
    induction ts with
    | nil => rfl
    | cons t ts ih =>
      obtain ⟨k1, k2⟩ := hc t (by simp)
      have ih := ih fun u hu => hc u (by simp [hu])
      rw [List.flatMap_cons, List.flatMap_append, ih, List.flatMap_cons, k1, List.flatMap_cons, List.flatMap_append, List.map_append,
        List.nil_append, List.flatMap_map]
      congr 1
      clear ih
      have k2 : ∀ c ∈ t.cells, v c.frame = c.paras.map SPara.id := k2
      generalize t.cells = cs at k2
      induction cs with
      | nil => rfl
      | cons c cs ih2 =>
        rw [List.flatMap_cons, List.flatMap_cons, List.map_append, k2 c (by simp), ih2 fun x hx => k2 x (by simp [hx])]

/-! ### The blocks in order -/

/-- Paragraphs, some of them twice. -/
def doubled (q : SPara → Bool) (ps : List SPara) : List SPara := ps.flatMap fun p => if q p then [p, p] else [p]

theorem doubled_cons (q : SPara → Bool) (p : SPara) (ps : List SPara) :
    doubled q (p :: ps) = (if q p then [p, p] else [p]) ++ doubled q ps := rfl

theorem mem_doubled {q : SPara → Bool} {x : SPara} : x ∈ doubled q ps ↔ x ∈ ps := by
  unfold doubled
  rw [List.mem_flatMap]
  constructor
  · rintro ⟨y, hy, hx⟩
    split at hx
    · simp at hx; rw [hx]; exact hy
    · simp at hx; rw [hx]; exact hy
  · intro hx
    refine ⟨x, hx, ?_⟩
    split <;> simp

theorem doubled_perm (q : SPara → Bool) (ps : List SPara) : (doubled q ps).Perm (ps ++ ps.filter q) := by
  induction ps with
  | nil => exact .refl _
  | cons p ps ih =>
    rw [doubled_cons, List.filter_cons]
    by_cases h : q p = true
    · rw [if_pos h, if_pos h]
      show (p :: p :: doubled q ps).Perm (p :: (ps ++ p :: ps.filter q))
      exact .cons p ((ih.cons p).trans List.perm_middle.symm)
    · rw [if_neg h, if_neg h]
      exact ih.cons p

theorem doubled_ascends {q : SPara → Bool} (h : Ascends s ps) : (doubled q ps).Pairwise fun a b => s.storedPos a ≤ s.storedPos b := by
  unfold Ascends at h
  induction ps with
  | nil => exact .nil
  | cons p ps ih =>
    rw [List.pairwise_cons] at h
    have ih := ih h.2
    have hp : ∀ x ∈ doubled q ps, s.storedPos p ≤ s.storedPos x := fun x hx => by
      have := h.1 x (mem_doubled.mp hx)
      omega
    rw [doubled_cons]
    split
    · refine List.pairwise_cons.mpr ⟨fun x hx => ?_, List.pairwise_cons.mpr ⟨hp, ih⟩⟩
      rcases List.mem_cons.mp hx with rfl | hx
      · exact Int.le_refl _
      · exact hp x hx
    · exact List.pairwise_cons.mpr ⟨hp, ih⟩

/-- Whether a paragraph is in a cell. -/
def inCellOf (items : List SItem) (p : SPara) : Bool := (cellParas items).any fun q => q.id == p.id

theorem flow_perm (items : List SItem) : (flowParas items).Perm (topParas items ++ cellParas items) := by
  unfold cellParas
  induction items with
  | nil => exact .refl _
  | cons x items ih =>
    cases x with
    | para p => exact ih.cons p
    | table t =>
      show (t.cells.flatMap SCell.paras ++ flowParas items).Perm (topParas items ++ (t.cells ++ cellsOf items).flatMap SCell.paras)
      rw [List.flatMap_append, ← List.append_assoc]
      refine .trans ?_ (List.Perm.append_right _ List.perm_append_comm)
      rw [List.append_assoc]
      exact ih.append_left _

theorem inCell_top (hn : ((flowParas items).map SPara.id).Nodup) (hp : p ∈ topParas items) : inCellOf items p = false := by
  have := ((flow_perm items).map SPara.id).nodup_iff.mp hn
  rw [List.map_append, List.nodup_append] at this
  unfold inCellOf
  rw [List.any_eq_false]
  intro q hq e
  exact this.2.2 _ (List.mem_map_of_mem hp) _ (List.mem_map_of_mem hq) (by simpa using e : q.id = p.id).symm

theorem inCell_cell {c : SCell} (hc : c ∈ cellsOf items) (hp : p ∈ c.paras) : inCellOf items p = true := by
  unfold inCellOf
  rw [List.any_eq_true]
  exact ⟨p, List.mem_flatMap.mpr ⟨c, hc, hp⟩, by simp⟩

theorem filter_inCell (hn : ((flowParas items).map SPara.id).Nodup) : ((flowParas items).filter (inCellOf items)).Perm (cellParas items) := by
  refine ((flow_perm items).filter _).trans (.of_eq ?_)
  rw [List.filter_append, List.filter_eq_nil_iff.mpr, List.filter_eq_self.mpr, List.nil_append]
  · intro p hp
    obtain ⟨c, hc, hp⟩ := List.mem_flatMap.mp hp
    exact inCell_cell hc hp
  · intro p hp
    rw [inCell_top hn hp]; simp

theorem Arranged.copyBlocks (h : Arranged s d f items) (ho : Ascends s (flowParas items)) :
    ∃ pairs, mapOpt (s.blocksBelow (s.frames.len + 1)) (s.docFrames d.id) = some pairs ∧
      sortByKey Block.documentPosition (s.getBlocks (pairs.flatten.map Prod.fst)) =
        (doubled (inCellOf items) (flowParas items)).map fun p => p.entity (s.storedPos p) := by
  obtain ⟨pairs, h1, h2⟩ := h.below_all
  obtain ⟨L, hL, _⟩ := h.content
  have hn := hL.ids_nodup
  refine ⟨pairs, h1, ?_⟩
  have hsub : ∀ q ∈ flowParas items ++ cellParas items, q ∈ flowParas items := by
    intro q hq
    rcases List.mem_append.mp hq with hq | hq
    · exact hq
    · exact (flow_perm items).mem_iff.mpr (List.mem_append_right _ hq)
  have hperm : (s.getBlocks (pairs.flatten.map Prod.fst)).Perm
      ((doubled (inCellOf items) (flowParas items)).map fun p => p.entity (s.storedPos p)) := by
    refine (h2.filterMap _).trans ?_
    have := hL.getBlocks _ hsub
    unfold Store.getBlocks at this
    rw [this]
    refine List.Perm.map _ ?_
    exact (List.Perm.append_left _ (filter_inCell hn).symm).trans (doubled_perm _ _).symm
  have hperm := (sortByKey_perm Block.documentPosition _).trans hperm
  refine List.Perm.eq_of_pairwise (le := fun a b : Block => a.documentPosition ≤ b.documentPosition) ?_ (sortByKey_sorted _ _) ?_ hperm
  · intro a b ha hb h3 h4
    obtain ⟨p, hp, rfl⟩ := List.mem_map.mp (hperm.mem_iff.mp ha)
    obtain ⟨q, hq, rfl⟩ := List.mem_map.mp hb
    have hp := mem_doubled.mp hp
    have hq := mem_doubled.mp hq
    have e : s.storedPos p = s.storedPos q := Int.le_antisymm h3 h4
    have : p = q := by
      unfold Ascends at ho
      obtain ⟨i, hi, rfl⟩ := List.getElem_of_mem hp
      obtain ⟨j, hj, rfl⟩ := List.getElem_of_mem hq
      rw [List.pairwise_iff_getElem] at ho
      rcases Nat.lt_trichotomy i j with hij | hij | hij
      · have := ho i j hi hj hij; omega
      · subst hij; rfl
      · have := ho j i hj hi hij; omega
    rw [this]
  · rw [List.pairwise_map]
    exact doubled_ascends ho

/-! ### What is copied -/

/-- The pieces of a selection, those of some paragraphs twice. -/
def piecesOf (q : SPara → Bool) (lo hi : Nat) : Nat → List SPara → List Piece
  | _, [] => []
  | n, p :: ps =>
    if n + p.chars.length < lo ∨ hi ≤ n then piecesOf q lo hi (n + p.chars.length + 1) ps
    else
      (let x : Piece := ⟨(p.chars.take (hi - n)).drop (lo - n),
        if lo ≤ n ∧ (n + p.chars.length < hi ∨ (ps = [] ∧ n + p.chars.length = hi)) then some p else none⟩
      if q p then [x, x] else [x]) ++ piecesOf q lo hi (n + p.chars.length + 1) ps

theorem Legible.extractDoubled (h : Legible s ps) (q : SPara → Bool) (lo hi last : Nat) (hlt : lo < hi) (qs : List SPara) (n : Nat)
    (hq : ∀ x ∈ qs, x ∈ ps) (hlast : ∀ A x B, qs = A ++ x :: B → (x.id = last ↔ B = []))
    (hst : (qs.map fun p => p.entity (s.storedPos p)) = placed n qs) :
    ∃ l, mapOpt (s.extractBlock lo hi last) ((doubled q qs).map fun p => p.entity (s.storedPos p)) = some l ∧
      CopiesOf s (l.filterMap id) (piecesOf q lo hi n qs) := by
  induction qs generalizing n with
  | nil => exact ⟨[], rfl, trivial⟩
  | cons x qs ih =>
    have e1 : (n : Int) + ((x.text.length : Nat) + 1) = ((n + x.chars.length + 1 : Nat) : Int) := by
      simp only [SPara.text_length]; push_cast; omega
    rw [List.map_cons, placed, e1, List.cons.injEq] at hst
    obtain ⟨l, h1, h2⟩ := ih (n + x.chars.length + 1) (fun y hy => hq y (by simp [hy]))
      (fun A y B e => hlast (x :: A) y B (by simp [e])) hst.2
    have hx := h.extractBlock (hq x (by simp)) lo hi n last hlt
    have hl := hlast [] x qs rfl
    rw [doubled_cons, List.map_append]
    by_cases hc : n + x.chars.length < lo ∨ hi ≤ n
    · have hx1 := hx.1 hc
      rw [piecesOf, if_pos hc]
      by_cases hb : q x = true
      · rw [if_pos hb]
        simp only [List.map_cons, List.map_nil, List.cons_append, List.nil_append, mapOpt, hst.1, hx1, h1]
        exact ⟨none :: none :: l, rfl, by simpa using h2⟩
      · rw [if_neg hb]
        simp only [List.map_cons, List.map_nil, List.cons_append, List.nil_append, mapOpt, hst.1, hx1, h1]
        exact ⟨none :: l, rfl, by simpa using h2⟩
    · obtain ⟨fb, h3, h4⟩ := hx.2 hc
      simp only [hl] at h4
      rw [piecesOf, if_neg hc]
      dsimp only
      by_cases hb : q x = true
      · rw [if_pos hb, if_pos hb]
        simp only [List.map_cons, List.map_nil, List.cons_append, List.nil_append, mapOpt, hst.1, h3, h1]
        exact ⟨some fb :: some fb :: l, rfl, h4, h4, h2⟩
      · rw [if_neg hb, if_neg hb]
        simp only [List.map_cons, List.map_nil, List.cons_append, List.nil_append, mapOpt, hst.1, h3, h1]
        exact ⟨some fb :: l, rfl, h4, h2⟩

theorem piecesOf_once {q : SPara → Bool} {lo hi : Nat} (qs : List SPara) (n : Nat) (h : ∀ p ∈ touched lo hi n qs, q p = false) :
    piecesOf q lo hi n qs = pieces lo hi n qs := by
  induction qs generalizing n with
  | nil => rfl
  | cons p qs ih =>
    rw [piecesOf, pieces]
    rw [touched] at h
    split
    · rename_i hc
      rw [if_pos hc] at h
      exact ih _ h
    · rename_i hc
      rw [if_neg hc] at h
      rw [ih _ fun x hx => h x (by simp [hx]), if_neg (by rw [h p (by simp)]; simp)]
      rfl

theorem piecesOf_twice {q : SPara → Bool} {lo hi : Nat} (qs : List SPara) (n : Nat) (h : ∀ p ∈ touched lo hi n qs, q p = true) :
    piecesOf q lo hi n qs = (pieces lo hi n qs).flatMap fun x => [x, x] := by
  induction qs generalizing n with
  | nil => rfl
  | cons p qs ih =>
    rw [piecesOf, pieces]
    rw [touched] at h
    split
    · rename_i hc
      rw [if_pos hc] at h
      exact ih _ h
    · rename_i hc
      rw [if_neg hc] at h
      rw [ih _ fun x hx => h x (by simp [hx]), if_pos (h p (by simp))]
      rfl

/-- No cell boundary is crossed where all touched paragraphs are in the same place. -/
theorem Arranged.notCrosses (h : Arranged s d f items) {lo hi : Nat} {o : Option Nat} (q : SPara → Bool) :
    ∀ (qs : List SPara) (n : Nat), (∀ p ∈ touched lo hi n qs, s.cellFrameOf d.id p.id = o) → (∀ x ∈ qs, x ∈ flowParas items) →
    (qs.map fun p => p.entity (s.storedPos p)) = placed n qs →
    ∃ l, mapOpt (fun b : Block => (blockCharLength s.text b.id).map fun (len : Nat) =>
      if b.documentPosition + len < (lo : Int) ∨ b.documentPosition ≥ (hi : Int) then []
      else [s.cellFrameOf d.id b.id]) ((doubled q qs).map fun p => p.entity (s.storedPos p)) = some l ∧ ∀ c ∈ l.flatten, c = o := by
  obtain ⟨L, hL, _⟩ := h.content
  intro qs
  induction qs with
  | nil => intro n _ _ _; exact ⟨[], rfl, by simp⟩
  | cons x qs ih =>
    intro n ht hq hst
    have e1 : (n : Int) + ((x.text.length : Nat) + 1) = ((n + x.chars.length + 1 : Nat) : Int) := by
      simp only [SPara.text_length]; push_cast; omega
    rw [List.map_cons, placed, e1, List.cons.injEq] at hst
    obtain ⟨l, h1, h2⟩ := ih (n + x.chars.length + 1) (by
      intro p hp
      refine ht p ?_
      rw [touched]
      split
      · exact hp
      · exact List.mem_cons_of_mem _ hp) (fun y hy => hq y (by simp [hy])) hst.2
    obtain ⟨y, y1, y2⟩ : ∃ y, ((blockCharLength s.text (x.entity (s.storedPos x)).id).map fun (len : Nat) =>
        if (x.entity (s.storedPos x)).documentPosition + len < (lo : Int) ∨ (x.entity (s.storedPos x)).documentPosition ≥ (hi : Int) then []
        else [s.cellFrameOf d.id (x.entity (s.storedPos x)).id]) = some y ∧ ∀ c ∈ y, c = o := by
      rw [show (x.entity (s.storedPos x)).id = x.id from rfl, hL.charLength (hq x (by simp)), Option.map_some]
      refine ⟨_, rfl, ?_⟩
      have hpos : (x.entity (s.storedPos x)).documentPosition = n := by rw [hst.1]; rfl
      rw [hpos]
      intro c hc
      split at hc
      · simp at hc
      · rename_i hcc
        rw [List.mem_singleton] at hc
        rw [hc]
        refine ht x ?_
        rw [touched, if_neg]
        · simp
        · simp only [SPara.text_length] at hcc; omega
    rw [doubled_cons, List.map_append]
    split
    · refine ⟨y :: y :: l, ?_, ?_⟩
      · simp only [List.map_cons, List.map_nil, List.cons_append, List.nil_append, mapOpt]
        rw [y1, h1]; rfl
      · intro c hc
        rw [List.flatten_cons, List.flatten_cons, List.mem_append, List.mem_append] at hc
        rcases hc with hc | hc | hc
        · exact y2 c hc
        · exact y2 c hc
        · exact h2 c hc
    · refine ⟨y :: l, ?_, ?_⟩
      · simp only [List.map_cons, List.map_nil, List.cons_append, List.nil_append, mapOpt]
        rw [y1, h1]; rfl
      · intro c hc
        rw [List.flatten_cons, List.mem_append] at hc
        rcases hc with hc | hc
        · exact y2 c hc
        · exact h2 c hc

theorem doubled_last (q : SPara → Bool) (qs : List SPara) (p : SPara) : (doubled q (qs ++ [p])).getLast? = some p := by
  unfold doubled
  rw [List.flatMap_append, List.getLast?_append]
  simp only [List.flatMap_cons, List.flatMap_nil, List.append_nil]
  split <;> rfl

theorem Tabled.extractFragment (h : Tabled s d f items) (ht : tablesOf items ≠ []) {lo hi : Nat} {o : Option Nat} (hlt : lo < hi)
    (hto : ∀ p ∈ touched lo hi 0 (flowParas items), s.cellFrameOf d.id p.id = o) :
    ∃ fbs, CopiesOf s fbs (piecesOf (inCellOf items) lo hi 0 (flowParas items)) ∧
      ∀ x y : Int, min x y = (lo : Int) → max x y = (hi : Int) →
        s.extractFragment x y = some (fbs, joinLines (fbs.map FragBlock.text)) := by
  have ha := h.arranged
  obtain ⟨L, hL, _⟩ := h.content
  have hpl := placed_of_seated (h.seated ht)
  have hst : ((flowParas items).map fun p => p.entity (s.storedPos p)) = placed 0 (flowParas items) := by
    apply map_entity_placed
    intro L p R e
    obtain ⟨b, h1, h2⟩ := hpl L p R e
    simp [Store.storedPos, h1, h2]
  have hne : flowParas items ≠ [] := by
    intro e
    cases hx : topParas items with
    | nil => exact h.nonempty hx
    | cons p ps =>
      have := (flow_perm items).mem_iff.mpr (List.mem_append_left _ (hx ▸ List.mem_cons_self : p ∈ topParas items))
      rw [e] at this; simp at this
  obtain ⟨qs, p, e⟩ : ∃ qs p, flowParas items = qs ++ [p] := ⟨_, _, (List.dropLast_concat_getLast hne).symm⟩
  obtain ⟨pairs, b1, b2⟩ := ha.copyBlocks (h.seated ht).ascends
  have hlastid : (((doubled (inCellOf items) (flowParas items)).map fun p => p.entity (s.storedPos p)).getLast?.map Block.id).getD 0 = p.id := by
    rw [List.getLast?_map, e, doubled_last]; rfl
  have hnd := hL.ids_nodup
  obtain ⟨l, h1, h2⟩ := hL.legible.extractDoubled (inCellOf items) lo hi p.id hlt (flowParas items) 0 (fun q hq => hq) (by
    intro A q B e'
    constructor
    · intro hid
      cases hB : B with
      | nil => rfl
      | cons x B' =>
        exfalso
        have hBne : B ≠ [] := by rw [hB]; simp
        have hpB : p ∈ B := by
          have : (flowParas items).getLast? = B.getLast? := by
            rw [e', List.getLast?_append, List.getLast?_cons_of_ne_nil hBne]
            cases hb : B.getLast? with
            | none => exact absurd (List.getLast?_eq_none_iff.mp hb) hBne
            | some y => rfl
          rw [e, List.getLast?_concat] at this
          exact List.mem_of_getLast? this.symm
        rw [e', List.map_append, List.map_cons, List.nodup_append] at hnd
        have := (List.nodup_cons.mp hnd.2.1).1
        exact this (hid ▸ List.mem_map_of_mem hpB)
    · intro hB
      subst hB
      rw [e] at e'
      have := List.append_inj_right' e' rfl
      simp at this
      rw [this]) hst
  obtain ⟨l', c1, c2⟩ := ha.notCrosses (inCellOf items) (flowParas items) 0 hto (fun x hx => hx) hst
  have hcross : s.copyCrosses d.id ((doubled (inCellOf items) (flowParas items)).map fun p => p.entity (s.storedPos p)) lo hi = some false := by
    unfold Store.copyCrosses
    rw [c1, Option.map_some]
    congr 1
    split
    · rfl
    · rename_i c cs heq
      have hc := c2 c (by rw [heq]; simp)
      rw [List.any_eq_false]
      intro x hx
      have := c2 x (by rw [heq]; simp [hx])
      simp [this, hc]
  refine ⟨l.filterMap id, h2, fun x y hx hy => ?_⟩
  unfold Store.extractFragment
  rw [hx, hy]
  simp only []
  rw [if_neg (by omega), h.docIdOf, Option.bind_some, b1, Option.bind_some, b2, hcross, Option.bind_some, hlastid]
  simp only [Bool.false_eq_true, if_false]
  rw [h1]; rfl

end Verif

import Verif.Spec.Docx
/- The loop over the places of a table in DOCX export, for tables that are tiled by their cells. -/
namespace Verif
open Store

variable {s : Store} {cells : List TableCell} {rows columns : Nat} {g : TableCell → List DocxPara}

theorem Tiling.unique {cs : List TableCell} {R C : Int} (h : Tiling R C cs) {a b : TableCell} (ha : a ∈ cs) (hb : b ∈ cs) {r k : Int}
    (ca : a.covers r k = true) (cb : b.covers r k = true) : a = b := by
  have hr : 0 ≤ r ∧ r < R ∧ 0 ≤ k ∧ k < C := by
    have := h.inside a ha
    simp only [TableCell.covers, decide_eq_true_eq] at ca
    omega
  have h1 := h.once r k hr.1 hr.2.1 hr.2.2.1 hr.2.2.2
  have ma : a ∈ cs.filter fun c => c.covers r k := List.mem_filter.mpr ⟨ha, ca⟩
  have mb : b ∈ cs.filter fun c => c.covers r k := List.mem_filter.mpr ⟨hb, cb⟩
  obtain ⟨x, hl⟩ := List.length_eq_one_iff.mp h1
  rw [hl] at ma mb
  simp only [List.mem_singleton] at ma mb
  rw [ma, mb]

theorem Tiling.exists {cs : List TableCell} {R C : Int} (h : Tiling R C cs) {r k : Int} (h1 : 0 ≤ r) (h2 : r < R) (h3 : 0 ≤ k) (h4 : k < C) :
    ∃ a ∈ cs, a.covers r k = true := by
  have := h.once r k h1 h2 h3 h4
  obtain ⟨x, hl⟩ := List.length_eq_one_iff.mp this
  have : x ∈ cs.filter fun c => c.covers r k := by rw [hl]; simp
  exact ⟨x, List.mem_filter.mp this⟩

/-- The DOCX cell a cell begins with. -/
def docxStart (g : TableCell → List DocxPara) (c : TableCell) : DocxCell :=
  { gridSpan := if c.columnSpan > 1 then some c.columnSpan.toNat else none
    vMerge := if c.rowSpan > 1 then some .restart else none
    paras := g c }

/-- What is written for a place of a tiled table: `c` is the cell there. -/
def docxEmit (g : TableCell → List DocxPara) (r k : Nat) (c : TableCell) : List DocxCell :=
  if c.row = (r : Int) ∧ c.column = (k : Int) then [docxStart g c]
  else if c.column = (k : Int) then [{ vMerge := some .continue_ }] else []

/-- The places marked before the place (`r`, `k`) is written. -/
def Marked (cells : List TableCell) (rows columns r k : Nat) (cov : List (Nat × Nat)) : Prop :=
  ∀ i j : Nat, i < rows → j < columns → ((i, j) ∈ cov ↔ ∃ c ∈ cells, c.covers i j = true ∧ ¬ (c.row = i ∧ c.column = j) ∧
    (c.row < r ∨ c.row = r ∧ c.column < k))

theorem mem_docxCovered {r k : Nat} {c : TableCell} (hr : c.row = r) (hk : c.column = k) {i j : Nat} (hi : i < rows) (hj : j < columns) :
    (i, j) ∈ docxCovered rows columns r k c ↔ c.covers i j = true ∧ ¬ (c.row = i ∧ c.column = j) := by
  unfold docxCovered
  simp only [List.mem_flatMap, List.mem_range, TableCell.covers, decide_eq_true_eq]
  constructor
  · rintro ⟨a, ha, b, hb, h⟩
    split at h
    · simp at h
    · split at h
      · simp only [List.mem_singleton, Prod.mk.injEq] at h
        omega
      · simp at h
  · rintro ⟨h1, h2⟩
    refine ⟨i - r, by omega, j - k, by omega, ?_⟩
    rw [if_neg (by omega), if_pos (by omega)]
    simp only [List.mem_singleton, Prod.mk.injEq]
    omega

/-- One place. -/
theorem docxPlace_tiled (ht : Tiling rows columns cells) (hg : ∀ c ∈ cells, s.docxCellParas c = some (g c)) {r k : Nat} (hr : r < rows)
    (hk : k < columns) {cov : List (Nat × Nat)} (hm : Marked cells rows columns r k cov) {c : TableCell} (hc : c ∈ cells)
    (hcov : c.covers r k = true) :
    ∃ cov', s.docxPlace cells rows columns r k cov = some (docxEmit g r k c, cov') ∧ Marked cells rows columns r (k + 1) cov' := by
  have hin := ht.inside c hc
  have hsp := ht.span c hc
  have hcv := hcov
  simp only [TableCell.covers, decide_eq_true_eq] at hcv
  by_cases hs : c.row = (r : Int) ∧ c.column = (k : Int)
  · -- the cell begins here
    have hno : (r, k) ∉ cov := by
      intro hmem
      obtain ⟨b, hb, b1, b2, b3⟩ := (hm r k hr hk).mp hmem
      have := ht.unique hc hb hcov b1
      subst this
      exact b2 hs
    have hfind : cells.find? (fun (x : TableCell) => decide (x.row = (r : Int) ∧ x.column = (k : Int))) = some c := by
      cases hf : cells.find? (fun (x : TableCell) => decide (x.row = (r : Int) ∧ x.column = (k : Int))) with
      | none =>
        have := List.find?_eq_none.mp hf c hc
        simp only [decide_eq_true_eq] at this
        exact absurd hs this
      | some b =>
        have hb := List.mem_of_find?_eq_some hf
        have hb2 := List.find?_some hf
        simp only [decide_eq_true_eq] at hb2
        have hbs := ht.span b hb
        have : b.covers r k = true := by simp only [TableCell.covers, decide_eq_true_eq]; omega
        rw [ht.unique hc hb hcov this]
    refine ⟨cov ++ docxCovered rows columns r k c, ?_, ?_⟩
    · unfold Store.docxPlace
      have : cov.contains (r, k) = false := by
        rw [Bool.eq_false_iff]; simpa using hno
      rw [if_neg (by simp [hno]), hfind]
      simp only [hg c hc, Option.map_some]
      unfold docxEmit docxStart
      rw [if_pos hs]
    · intro i j hi hj
      rw [List.mem_append, hm i j hi hj, mem_docxCovered hs.1 hs.2 hi hj]
      constructor
      · rintro (⟨b, hb, b1, b2, b3⟩ | ⟨b1, b2⟩)
        · exact ⟨b, hb, b1, b2, by omega⟩
        · exact ⟨c, hc, b1, b2, by omega⟩
      · rintro ⟨b, hb, b1, b2, b3⟩
        by_cases e : b.row = (r : Int) ∧ b.column = (k : Int)
        · have hbs := ht.span b hb
          have : b.covers r k = true := by simp only [TableCell.covers, decide_eq_true_eq]; omega
          have := ht.unique hc hb hcov this
          subst this
          exact .inr ⟨b1, b2⟩
        · exact .inl ⟨b, hb, b1, b2, by omega⟩
  · -- the place is covered
    have hyes : (r, k) ∈ cov := (hm r k hr hk).mpr ⟨c, hc, hcov, hs, by omega⟩
    refine ⟨cov, ?_, ?_⟩
    · unfold Store.docxPlace docxEmit
      rw [if_pos (by simpa using hyes), if_neg hs]
      by_cases hcol : c.column = (k : Int)
      · rw [if_pos hcol, if_pos]
        simp only [Bool.and_eq_true, decide_eq_true_eq, List.any_eq_true]
        exact ⟨by omega, c, hc, by omega⟩
      · rw [if_neg hcol, if_neg]
        simp only [Bool.and_eq_true, decide_eq_true_eq, List.any_eq_true]
        rintro ⟨_, b, hb, b1⟩
        have hbs := ht.span b hb
        have : b.covers r k = true := by simp only [TableCell.covers, decide_eq_true_eq]; omega
        have := ht.unique hc hb hcov this
        subst this
        omega
    · intro i j hi hj
      rw [hm i j hi hj]
      constructor
      · rintro ⟨b, hb, b1, b2, b3⟩
        exact ⟨b, hb, b1, b2, by omega⟩
      · rintro ⟨b, hb, b1, b2, b3⟩
        refine ⟨b, hb, b1, b2, ?_⟩
        by_cases e : b.row = (r : Int) ∧ b.column = (k : Int)
        · have hbs := ht.span b hb
          have : b.covers r k = true := by simp only [TableCell.covers, decide_eq_true_eq]; omega
          have := ht.unique hc hb hcov this
          subst this
          exact absurd e hs
        · omega

/-- The cell at a place. -/
def ownerAt (cells : List TableCell) (r k : Nat) : TableCell := (cells.find? fun c => c.covers r k).getD {}

theorem Tiling.owner (ht : Tiling rows columns cells) {r k : Nat} (hr : r < rows) (hk : k < columns) :
    ownerAt cells r k ∈ cells ∧ (ownerAt cells r k).covers r k = true := by
  obtain ⟨a, ha, hc⟩ := ht.exists (r := r) (k := k) (by omega) (by omega) (by omega) (by omega)
  unfold ownerAt
  cases hf : cells.find? fun c => c.covers r k with
  | none => exact absurd hc (List.find?_eq_none.mp hf a ha)
  | some b => exact ⟨List.mem_of_find?_eq_some hf, List.find?_some (p := fun c : TableCell => c.covers r k) hf⟩

/-- A row from the column `k` on. -/
def docxTail (g : TableCell → List DocxPara) (cells : List TableCell) (r : Nat) : Nat → Nat → List DocxCell
  | 0, _ => []
  | n + 1, k => docxEmit g r k (ownerAt cells r k) ++ docxTail g cells r n (k + 1)

theorem docxRow_tiled (ht : Tiling rows columns cells) (hg : ∀ c ∈ cells, s.docxCellParas c = some (g c)) {r : Nat} (hr : r < rows) :
    ∀ (n k : Nat) (cov : List (Nat × Nat)), k + n = columns → Marked cells rows columns r k cov →
    ∃ cov', s.docxRow cells rows columns r n k cov = some (docxTail g cells r n k, cov') ∧ Marked cells rows columns r columns cov' := by
  intro n
  induction n with
  | zero =>
    intro k cov hk hm
    have : k = columns := by omega
    subst this
    exact ⟨cov, rfl, hm⟩
  | succ n ih =>
    intro k cov hk hm
    obtain ⟨o1, o2⟩ := ht.owner (k := k) hr (by omega)
    obtain ⟨cov1, e1, m1⟩ := docxPlace_tiled ht hg hr (by omega) hm o1 o2
    obtain ⟨cov2, e2, m2⟩ := ih (k + 1) cov1 (by omega) m1
    refine ⟨cov2, ?_, m2⟩
    unfold Store.docxRow
    simp only [e1, Option.bind_some, e2]
    rfl

theorem Marked.nextRow (ht : Tiling rows columns cells) {r : Nat} {cov : List (Nat × Nat)} (h : Marked cells rows columns r columns cov) :
    Marked cells rows columns (r + 1) 0 cov := by
  intro i j hi hj
  rw [h i j hi hj]
  constructor
  · rintro ⟨b, hb, b1, b2, b3⟩; exact ⟨b, hb, b1, b2, by omega⟩
  · rintro ⟨b, hb, b1, b2, b3⟩
    have h1 := ht.inside b hb
    have h2 := ht.span b hb
    exact ⟨b, hb, b1, b2, by omega⟩

theorem docxRows_tiled (ht : Tiling rows columns cells) (hg : ∀ c ∈ cells, s.docxCellParas c = some (g c)) :
    ∀ (n r : Nat) (cov : List (Nat × Nat)), r + n = rows → Marked cells rows columns r 0 cov →
    s.docxRows cells rows columns n r cov = some ((List.range' r n).map fun r => docxTail g cells r columns 0) := by
  intro n
  induction n with
  | zero => intro r cov _ _; rfl
  | succ n ih =>
    intro r cov hr hm
    obtain ⟨cov1, e1, m1⟩ := docxRow_tiled ht hg (r := r) (by omega) columns 0 cov (by omega) hm
    unfold Store.docxRows
    simp only [e1, Option.bind_some]
    rw [ih (r + 1) cov1 (by omega) (m1.nextRow ht)]
    rfl

theorem marked_nil (ht : Tiling rows columns cells) : Marked cells rows columns 0 0 [] := by
  intro i j _ _
  simp only [List.not_mem_nil, false_iff, not_exists, not_and]
  intro c hc _ _
  have := ht.inside c hc
  omega

/-- All rows. -/
theorem docxRows_all (ht : Tiling rows columns cells) (hg : ∀ c ∈ cells, s.docxCellParas c = some (g c)) :
    s.docxRows cells rows columns rows 0 [] = some ((List.range rows).map fun r => docxTail g cells r columns 0) := by
  rw [docxRows_tiled ht hg rows 0 [] (by omega) (marked_nil ht), List.range_eq_range']

/-! ### Tables in which no cell spans both rows and columns -/

theorem width_start (c : TableCell) (h : 1 ≤ c.columnSpan) : (docxWidth (docxStart g c) : Int) = c.columnSpan := by
  unfold docxWidth docxStart
  split
  · simp only [Option.getD_some]; omega
  · simp only [Option.getD_none]; omega

/-- The row so far ends where the cell at `k` begins, or at its end if it was written before. -/
def RowAt (cells : List TableCell) (columns r k j : Nat) : Prop :=
  (k = columns → j = columns) ∧
  (k < columns → ((ownerAt cells r k).column = k → j = k) ∧
    ((ownerAt cells r k).column ≠ k → (j : Int) = (ownerAt cells r k).column + (ownerAt cells r k).columnSpan))

theorem RowAt.next (ht : Tiling rows columns cells) {r k : Nat} (hr : r < rows) (hk : k < columns) {j : Nat}
    (hj : (j : Int) = (ownerAt cells r k).column + (ownerAt cells r k).columnSpan) : RowAt cells columns r (k + 1) j := by
  obtain ⟨o1, o2⟩ := ht.owner hr hk
  have hin := ht.inside _ o1
  have hcv := o2
  simp only [TableCell.covers, decide_eq_true_eq] at hcv
  refine ⟨fun h => by omega, fun h => ?_⟩
  obtain ⟨p1, p2⟩ := ht.owner hr h
  have hpv := p2
  simp only [TableCell.covers, decide_eq_true_eq] at hpv
  by_cases hlt : ((k + 1 : Nat) : Int) < (ownerAt cells r k).column + (ownerAt cells r k).columnSpan
  · have e : ownerAt cells r k = ownerAt cells r (k + 1) :=
      ht.unique o1 p1 (r := r) (k := (k + 1 : Nat)) (by simp only [TableCell.covers, decide_eq_true_eq]; omega) p2
    rw [← e]
    exact ⟨fun h => by omega, fun _ => hj⟩
  · refine ⟨fun _ => by omega, fun hne => ?_⟩
    have e : ownerAt cells r k = ownerAt cells r (k + 1) :=
      ht.unique o1 p1 (r := r) (k := k) o2 (by simp only [TableCell.covers, decide_eq_true_eq]; omega)
    rw [← e]
    exact hj

theorem RowAt.zero (ht : Tiling rows columns cells) {r : Nat} (hr : r < rows) : RowAt cells columns r 0 0 := by
  refine ⟨fun h => h, fun h => ⟨fun _ => rfl, fun hne => ?_⟩⟩
  obtain ⟨o1, o2⟩ := ht.owner hr h
  have hin := ht.inside _ o1
  simp only [TableCell.covers, decide_eq_true_eq] at o2
  omega

/-- What is written for the place where a cell begins in a row. -/
theorem emit_width (ht : Tiling rows columns cells) (hthin : ∀ c ∈ cells, c.rowSpan = 1 ∨ c.columnSpan = 1) {r k : Nat} {c : TableCell}
    (hc : c ∈ cells) (hcov : c.covers r k = true) (hk : c.column = k) :
    ∃ x, docxEmit g r k c = [x] ∧ (docxWidth x : Int) = c.columnSpan ∧
      (c.row = r ∧ x = docxStart g c ∨ c.row < r ∧ x = { vMerge := some .continue_ }) := by
  have hs := ht.span c hc
  simp only [TableCell.covers, decide_eq_true_eq] at hcov
  unfold docxEmit
  by_cases h : c.row = (r : Int)
  · rw [if_pos ⟨h, hk⟩]
    exact ⟨_, rfl, width_start c hs.2, .inl ⟨h, rfl⟩⟩
  · rw [if_neg (by simp [h]), if_pos hk]
    refine ⟨_, rfl, ?_, .inr ⟨by omega, rfl⟩⟩
    rcases hthin c hc with e | e
    · omega
    · rw [e]; rfl

/-- The rest of a row: its width, and what stands where. -/
theorem docxTail_columns (ht : Tiling rows columns cells) (hthin : ∀ c ∈ cells, c.rowSpan = 1 ∨ c.columnSpan = 1) {r : Nat} (hr : r < rows) :
    ∀ (n k j : Nat), k + n = columns → RowAt cells columns r k j →
    j + ((docxTail g cells r n k).map docxWidth).sum = columns ∧
    ∀ m x, (m, x) ∈ docxColumns j (docxTail g cells r n k) ↔
      k ≤ m ∧ m < columns ∧ (ownerAt cells r m).column = m ∧ docxEmit g r m (ownerAt cells r m) = [x] := by
  intro n
  induction n with
  | zero =>
    intro k j hk hj
    refine ⟨?_, ?_⟩
    · have := hj.1 (by omega)
      simp [docxTail, this]
    · intro m x
      simp only [docxTail, docxColumns, List.not_mem_nil, false_iff, not_and]
      intro h1 h2; omega
  | succ n ih =>
    intro k j hk hj
    have hkc : k < columns := by omega
    obtain ⟨o1, o2⟩ := ht.owner hr hkc
    have hcv := o2
    simp only [TableCell.covers, decide_eq_true_eq] at hcv
    by_cases hb : (ownerAt cells r k).column = k
    · obtain ⟨x0, e0, w0, _⟩ := emit_width (g := g) ht hthin o1 o2 hb
      have hjk := (hj.2 hkc).1 hb
      have hnext : RowAt cells columns r (k + 1) (j + docxWidth x0) := RowAt.next ht hr hkc (by omega)
      obtain ⟨i1, i2⟩ := ih (k + 1) (j + docxWidth x0) (by omega) hnext
      have et : docxTail g cells r (n + 1) k = x0 :: docxTail g cells r n (k + 1) := by
        show docxEmit g r k (ownerAt cells r k) ++ _ = _
        rw [e0]; rfl
      rw [et]
      refine ⟨by simp only [List.map_cons, List.sum_cons]; omega, ?_⟩
      intro m x
      simp only [docxColumns, List.mem_cons, Prod.mk.injEq, i2]
      constructor
      · rintro (⟨rfl, rfl⟩ | ⟨h1, h2⟩)
        · rw [hjk]
          exact ⟨by omega, by omega, hb, e0⟩
        · exact ⟨by omega, h2⟩
      · rintro ⟨h1, h2, h3, h4⟩
        by_cases hm : m = k
        · subst hm
          rw [e0] at h4
          exact .inl ⟨by omega, by simpa using h4.symm⟩
        · exact .inr ⟨by omega, h2, h3, h4⟩
    · have hj' := (hj.2 hkc).2 hb
      have hnext : RowAt cells columns r (k + 1) j := RowAt.next ht hr hkc hj'
      obtain ⟨i1, i2⟩ := ih (k + 1) j (by omega) hnext
      have et : docxTail g cells r (n + 1) k = docxTail g cells r n (k + 1) := by
        show docxEmit g r k (ownerAt cells r k) ++ _ = _
        unfold docxEmit
        rw [if_neg (by simp [hb]), if_neg hb]; rfl
      rw [et]
      refine ⟨i1, ?_⟩
      intro m x
      rw [i2]
      constructor
      · rintro ⟨h1, h2⟩; exact ⟨by omega, h2⟩
      · rintro ⟨h1, h2, h3, h4⟩
        refine ⟨?_, h2, h3, h4⟩
        by_cases hm : m = k
        · subst hm; exact absurd h3 hb
        · omega

/-! ### All tiled tables -/

/-- The cells of a row that begin there, from the column `k` on. -/
theorem docxTail_starts (ht : Tiling rows columns cells) {r : Nat} (hr : r < rows) :
    ∀ (n k : Nat), k + n = columns → (docxTail g cells r n k).filter (fun x => decide (x.vMerge ≠ some .continue_)) =
      ((List.range' k n).filterMap fun (k : Nat) => cells.find? fun (c : TableCell) => decide (c.row = (r : Int) ∧ c.column = (k : Int))).map (docxStart g) := by
  intro n
  induction n with
  | zero => intro k _; rfl
  | succ n ih =>
    intro k hk
    obtain ⟨o1, o2⟩ := ht.owner hr (k := k) (by omega)
    have hcv := o2
    simp only [TableCell.covers, decide_eq_true_eq] at hcv
    show (docxEmit g r k (ownerAt cells r k) ++ docxTail g cells r n (k + 1)).filter _ = _
    rw [List.filter_append, ih (k + 1) (by omega), List.range'_succ, List.filterMap_cons]
    have hstart : ∀ c ∈ cells, c.row = (r : Int) → c.column = (k : Int) → c = ownerAt cells r k := by
      intro c hc h1 h2
      have := ht.span c hc
      exact ht.unique hc o1 (r := r) (k := k) (by simp only [TableCell.covers, decide_eq_true_eq]; omega) o2
    unfold docxEmit
    by_cases h : (ownerAt cells r k).row = (r : Int) ∧ (ownerAt cells r k).column = (k : Int)
    · have hf : cells.find? (fun c => decide (c.row = (r : Int) ∧ c.column = (k : Int))) = some (ownerAt cells r k) := by
        cases hf : cells.find? (fun c => decide (c.row = (r : Int) ∧ c.column = (k : Int))) with
        | none =>
          have := List.find?_eq_none.mp hf _ o1
          simp only [decide_eq_true_eq] at this
          exact absurd h this
        | some b =>
          have hb := List.mem_of_find?_eq_some hf
          have hb2 := List.find?_some hf
          simp only [decide_eq_true_eq] at hb2
          rw [hstart b hb hb2.1 hb2.2]
      rw [if_pos h, hf]
      have hv : decide ((docxStart g (ownerAt cells r k)).vMerge ≠ some .continue_) = true := by
        unfold docxStart
        split <;> simp
      simp only [List.filter_cons, hv, if_true, List.filter_nil, List.map_cons, List.singleton_append]
    · have hf : cells.find? (fun c => decide (c.row = (r : Int) ∧ c.column = (k : Int))) = none := by
        rw [List.find?_eq_none]
        intro c hc
        simp only [decide_eq_true_eq]
        intro h'
        rw [hstart c hc h'.1 h'.2] at h'
        exact h h'
      rw [if_neg h, hf]
      split
      · simp
      · simp

end Verif

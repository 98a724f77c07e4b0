import Verif.Spec.DocHtml
import Verif.Lemmas.HtmlTables
import Verif.Lemmas.DocxDoc
/- HTML export of documents with tables. -/
namespace Verif
open Store

variable {s : Store} {d : Document} {f : Nat} {items : List SItem} {p : SPara} {t : STable} {ps : List SPara}
  {cells : List TableCell} {rows columns : Nat} {g : TableCell → List Char}

theorem Arranged.pages (h : Arranged s d f items) : Pages s (flowParas items) := by
  obtain ⟨L, hL, _⟩ := h.content
  exact ⟨hL.legible, fun hp => hL.stored hp⟩

/-! ### Cells -/

theorem segments_nil {segs : List (Segment CharFormat)} (h : segItems segs = []) : segs.flatMap htmlSegment = [] := by
  induction segs with
  | nil => rfl
  | cons x segs ih =>
    cases x with
    | image i => simp [segItems] at h
    | text cs fm =>
      have e : segItems (Segment.text cs fm :: segs) = cs.map (fun c => Item.char c fm) ++ segItems segs := by simp [segItems]
      rw [e, List.append_eq_nil_iff, List.map_eq_nil_iff] at h
      rw [List.flatMap_cons, ih h.2, h.1]
      rfl

theorem Inl.nonempty {x : List Char} {es : List HtmlElem} {cs : List (Char × HtmlMarks)} (h : Inl x es cs) (hx : x = []) : cs = [] := by
  obtain ⟨ts, t1, t2⟩ := h
  subst hx
  have h1 := t1.read
  have : ts = [] := by
    have h2 : htmlTokens .text [] = some [] := rfl
    rw [h2] at h1
    exact (Option.some.inj h1).symm
  subst this
  have := t2 ⟨.para, [], []⟩ []
  unfold Runs at this
  have h3 : some (⟨es, true, [⟨.para, [], []⟩]⟩ : HtmlReader) = some ⟨es, true, [⟨.para, [], [] ++ cs⟩]⟩ := this
  simpa using h3

theorem Pages.cellLine (h : Pages s ps) (hp : p ∈ ps) (x : Int) :
    ∃ u, s.inlineHtml (p.entity x) = some u ∧ Inl u [] (marked p.chars) ∧ (u = [] ↔ p.chars = []) := by
  obtain ⟨segs, h1, h2⟩ := h.blockSegments hp
  have hid : (p.entity x).id = p.id := rfl
  have hi : Inl (segs.flatMap htmlSegment) [] (marked p.chars) := Inl.segments (by intro e he; simp at he) h2
  refine ⟨segs.flatMap htmlSegment, ?_, hi, fun h0 => ?_, fun h0 => ?_⟩
  · unfold Store.inlineHtml
    rw [hid, h1]; rfl
  · simpa [marked] using hi.nonempty h0
  · rw [h0] at h2
    exact segments_nil h2

/-- Lines with `<br/>` between them. -/
theorem joinedLines (rows : List (List HtmlCell)) (row : Option (List HtmlCell)) (e : HtmlElem) (xs : List (List Char × List (Char × HtmlMarks)))
    (h : ∀ x ∈ xs, Inl x.1 [] x.2) :
    ∃ ts, Tok (joinWith "<br/>".toList (xs.map Prod.fst)) ts ∧ ∀ ps, TabRuns ts ⟨rows, row, some (e, ⟨[], true, ⟨.para, [], []⟩ :: ps⟩)⟩
      ⟨rows, row, some (e, ⟨[], true, (if xs = [] then [⟨.para, [], []⟩] else xs.map fun x => ⟨.para, [], x.2⟩).reverse ++ ps⟩)⟩ := by
  induction xs with
  | nil => exact ⟨[], Tok.nil, fun ps => rfl⟩
  | cons x xs ih =>
    obtain ⟨ts, t1, t2⟩ := h x (by simp)
    cases xs with
    | nil =>
      refine ⟨ts, by simpa [joinWith] using t1, fun ps => ?_⟩
      have := Runs.cell (rows := rows) (row := row) (e := e) ts (t2 ⟨.para, [], []⟩ ps)
      simpa using this
    | cons y xs =>
      obtain ⟨us, u1, u2⟩ := ih fun x hx => h x (by simp [hx])
      have hbr : Tok "<br/>".toList [.tag "br/".toList] := Tok.tag "br/".toList (by decide)
      refine ⟨ts ++ ([.tag "br/".toList] ++ us), ?_, fun ps => ?_⟩
      · have := t1.append (hbr.append u1)
        have e : joinWith "<br/>".toList ((x :: y :: xs).map Prod.fst) =
            x.1 ++ ("<br/>".toList ++ joinWith "<br/>".toList ((y :: xs).map Prod.fst)) := by
          simp [joinWith]
        rw [e]; exact this
      · have r1 := Runs.cell (rows := rows) (row := row) (e := e) ts (t2 ⟨.para, [], []⟩ ps)
        have r2 := u2 ({ (⟨.para, [], []⟩ : HtmlPara) with chars := [] ++ x.2 } :: ps)
        generalize hq : ({ (⟨.para, [], []⟩ : HtmlPara) with chars := [] ++ x.2 } : HtmlPara) = q at r2
        have e1 : TabRuns [.tag "br/".toList] ⟨rows, row, some (e, ⟨[], true, q :: ps⟩)⟩ ⟨rows, row, some (e, ⟨[], true, ⟨.para, [], []⟩ :: q :: ps⟩)⟩ := by
          refine TabRuns.cons (b := ⟨rows, row, some (e, ⟨[], true, ⟨.para, [], []⟩ :: q :: ps⟩)⟩) ?_ rfl
          unfold TableReader.step
          dsimp only
          rw [if_neg (by decide), if_pos (.inr rfl)]
        have r3 := e1.append r2
        rw [← hq] at r3
        have r4 := r1.append r3
        rw [if_neg (by simp)] at r4 ⊢
        simpa using r4

/-- Text that is one cell of a table. -/
def CellTok (x : List Char) (hc : HtmlCell) : Prop :=
  ∃ ts, Tok x ts ∧ ∀ rows cells, TabRuns ts ⟨rows, some cells, none⟩ ⟨rows, some (hc :: cells), none⟩

/-- The tag of a cell. -/
def tdOpen (c : TableCell) : List Char :=
  "<td".toList ++ (if c.rowSpan > 1 then " rowspan=\"".toList ++ showInt c.rowSpan ++ ['"'] else []) ++
    (if c.columnSpan > 1 then " colspan=\"".toList ++ showInt c.columnSpan ++ ['"'] else [])

/-- The text of a cell. -/
def tdOf (g : TableCell → List Char) (c : TableCell) : List Char := tdOpen c ++ '>' :: g c ++ "</td>".toList

theorem docCellTag (c : TableCell) : ∃ body,
    Tok (tdOpen c ++ ['>']) [.tag body] ∧
    (elemOf body).name = "td".toList ∧ spanAttr "rowspan" (elemOf body) = spanText c.rowSpan.toNat ∧
    spanAttr "colspan" (elemOf body) = spanText c.columnSpan.toNat ∧ body ≠ "/tr".toList := by
  obtain ⟨body, b1, b2, _, b4, b5, b6⟩ := cellTag { row := 0, column := 0, rowSpan := c.rowSpan.toNat, columnSpan := c.columnSpan.toNat, blocks := [] }
  have key : ∀ (n : Int) (a : List Char), (if n.toNat > 1 then a ++ (toString n.toNat).toList ++ ['"'] else []) =
      if n > 1 then a ++ showInt n ++ ['"'] else [] := by
    intro n a
    by_cases h : n > 1
    · rw [if_pos (by omega), if_pos h]
      have : showInt n = (toString n.toNat).toList := by
        obtain ⟨m, rfl⟩ : ∃ m : Nat, n = m := ⟨n.toNat, by omega⟩
        rfl
      rw [this]
    · rw [if_neg (by omega), if_neg h]
  dsimp only at b1 b4 b5
  rw [key, key] at b1
  exact ⟨body, b1, b2, b4, b5, b6⟩

theorem Arranged.cellTok (h : Arranged s d f items) (ht : t ∈ tablesOf items) {c : SCell} (hc : c ∈ t.cells)
    (hl : s.frameBlocks c.frame = c.paras.map SPara.id) :
    ∃ x, s.cellHtml c.cell = some x ∧ ∀ g : TableCell → List Char, g c.cell = x → CellTok (tdOf g c.cell) (docCellOf c) := by
  obtain ⟨L, hL, _⟩ := h.content
  obtain ⟨_, k2, _⟩ := (h.table t ht).cell c hc
  have hsub : ∀ q ∈ c.paras, q ∈ flowParas items := fun q hq => (cellParas_sublist ht hc).subset hq
  have hp := h.pages
  have key : ∀ qs : List SPara, (∀ q ∈ qs, q ∈ flowParas items) → ∃ us,
      mapOpt s.inlineHtml (qs.map fun p => p.entity (s.storedPos p)) = some us ∧
      ∃ xs : List (List Char × List (Char × HtmlMarks)), us.filter (fun x => decide (x ≠ [])) = xs.map Prod.fst ∧ (∀ x ∈ xs, Inl x.1 [] x.2) ∧
        xs.map Prod.snd = (qs.filter fun p => decide (p.chars ≠ [])).map fun p => marked p.chars := by
    intro qs
    induction qs with
    | nil => intro _; exact ⟨[], rfl, [], rfl, by simp, rfl⟩
    | cons q qs ih =>
      intro hq
      obtain ⟨us, u1, xs, x1, x2, x3⟩ := ih fun y hy => hq y (by simp [hy])
      obtain ⟨u, v1, v2, v3⟩ := hp.cellLine (hq q (by simp)) (s.storedPos q)
      refine ⟨u :: us, by simp [mapOpt, v1, u1], ?_⟩
      by_cases h0 : q.chars = []
      · refine ⟨xs, ?_, x2, ?_⟩
        · rw [List.filter_cons_of_neg (by simpa using v3.mpr h0), x1]
        · rw [List.filter_cons_of_neg (by simpa using h0), x3]
      · refine ⟨(u, marked q.chars) :: xs, ?_, ?_, ?_⟩
        · rw [List.filter_cons_of_pos (by simpa using fun e => h0 (v3.mp e)), x1]; rfl
        · intro x hx
          rcases List.mem_cons.mp hx with rfl | hx
          · exact v2
          · exact x2 x hx
        · rw [List.filter_cons_of_pos (by simpa using h0), List.map_cons, List.map_cons, x3]
  obtain ⟨us, u1, xs, x1, x2, x3⟩ := key c.paras hsub
  refine ⟨joinWith "<br/>".toList (xs.map Prod.fst), ?_, ?_⟩
  · unfold Store.cellHtml
    rw [k2]
    dsimp only
    rw [hl, hL.getBlocks c.paras hsub, u1, Option.map_some, x1]
  · intro g hg
    obtain ⟨body, b1, b2, b4, b5, b6⟩ := docCellTag c.cell
    have hend : Tok "</td>".toList [.tag "/td".toList] := Tok.tag "/td".toList (by decide)
    obtain ⟨ts, t1, _⟩ := joinedLines [] none (elemOf body) xs x2
    refine ⟨[.tag body] ++ (ts ++ [.tag "/td".toList]), ?_, fun rows cells => ?_⟩
    · have := b1.append (t1.append hend)
      unfold tdOf
      rw [hg]
      have e : ∀ a b e : List Char, a ++ '>' :: b ++ e = a ++ ['>'] ++ (b ++ e) := by intro a b e; simp
      rw [e]
      exact this
    · obtain ⟨ts', t1', t2'⟩ := joinedLines rows (some cells) (elemOf body) xs x2
      have : ts' = ts := by
        have := t1.read; rw [t1'.read] at this; exact Option.some.inj this
      subst this
      refine TabRuns.append (TabRuns.cons (b := ⟨rows, some cells, some (elemOf body, ⟨[], true, [⟨.para, [], []⟩]⟩)⟩) ?_ rfl)
        ((t2' []).append (TabRuns.cons (b := ⟨rows, some (docCellOf c :: cells), none⟩) ?_ rfl))
      · unfold TableReader.step
        dsimp only
        rw [if_neg b6, if_pos b2]
      · unfold TableReader.step
        dsimp only
        rw [if_pos ⟨rfl, rfl⟩, b4, b5]
        simp only [Option.map_some]
        unfold docCellOf
        have hnil : (c.paras.filter fun p => decide (p.chars ≠ [])) = [] ↔ xs = [] := by
          rw [← List.map_eq_nil_iff (f := fun p : SPara => marked p.chars), ← x3, List.map_eq_nil_iff]
        by_cases hb : xs = []
        · rw [if_pos hb, if_pos (hnil.mpr hb)]; rfl
        · rw [if_neg hb, if_neg fun e => hb (hnil.mp e), ← x3]
          simp

/-! ### Rows -/

theorem Tiling.perm {R C : Int} {cs cs' : List TableCell} (h : Tiling R C cs) (hp : cs'.Perm cs) : Tiling R C cs' where
  inside c hc := h.inside c (hp.mem_iff.mp hc)
  span c hc := h.span c (hp.mem_iff.mp hc)
  once r k h1 h2 h3 h4 := by rw [(hp.filter _).length_eq]; exact h.once r k h1 h2 h3 h4
  ids := (hp.map _).nodup_iff.mpr h.ids

/-- The cell that begins at a place. -/
def startAt (cells : List TableCell) (r k : Nat) : Option TableCell := cells.find? fun (x : TableCell) => decide (x.row = (r : Int) ∧ x.column = (k : Int))

theorem Tiling.startAt_some (ht : Tiling rows columns cells) {r k : Nat} {c : TableCell} (hc : c ∈ cells) (h1 : c.row = r) (h2 : c.column = k) :
    startAt cells r k = some c := by
  unfold startAt
  cases hf : cells.find? (fun (x : TableCell) => decide (x.row = (r : Int) ∧ x.column = (k : Int))) with
  | none =>
    have := List.find?_eq_none.mp hf c hc
    simp only [decide_eq_true_eq] at this
    exact absurd ⟨h1, h2⟩ this
  | some b =>
    have hb := List.mem_of_find?_eq_some hf
    have hb2 := List.find?_some hf
    simp only [decide_eq_true_eq] at hb2
    have hbs := ht.span b hb
    have hcs := ht.span c hc
    rw [ht.unique hc hb (r := r) (k := k) (by simp only [TableCell.covers, decide_eq_true_eq]; omega)
      (by simp only [TableCell.covers, decide_eq_true_eq]; omega)]

theorem startAt_mem {r k : Nat} {c : TableCell} (h : startAt cells r k = some c) : c ∈ cells ∧ c.row = r ∧ c.column = k := by
  unfold startAt at h
  have h1 := List.find?_some (p := fun (x : TableCell) => decide (x.row = (r : Int) ∧ x.column = (k : Int))) h
  exact ⟨List.mem_of_find?_eq_some h, of_decide_eq_true h1⟩

theorem Tiling.startAt_perm {cs' : List TableCell} (ht : Tiling rows columns cells) (hp : cs'.Perm cells) (r k : Nat) :
    startAt cs' r k = startAt cells r k := by
  cases h : startAt cells r k with
  | some c =>
    obtain ⟨h1, h2, h3⟩ := startAt_mem h
    exact (ht.perm hp).startAt_some (hp.mem_iff.mpr h1) h2 h3
  | none =>
    cases h' : startAt cs' r k with
    | none => rfl
    | some c =>
      obtain ⟨h1, h2, h3⟩ := startAt_mem h'
      rw [ht.startAt_some (hp.mem_iff.mp h1) h2 h3] at h
      cases h

/-- The places a cell marks. -/
def htmlCovers (rows cols r c : Nat) (cell : TableCell) : List (Nat × Nat) :=
  (List.range cell.rowSpan.toNat).flatMap fun sr => (List.range cell.columnSpan.toNat).filterMap fun sc =>
    if sr = 0 ∧ sc = 0 then none else if r + sr < rows ∧ c + sc < cols then some (r + sr, c + sc) else none

theorem mem_htmlCovers {r k : Nat} {c : TableCell} (hr : c.row = r) (hk : c.column = k) {i j : Nat} (hi : i < rows) (hj : j < columns) :
    (i, j) ∈ htmlCovers rows columns r k c ↔ c.covers i j = true ∧ ¬ (c.row = i ∧ c.column = j) := by
  unfold htmlCovers
  simp only [List.mem_flatMap, List.mem_filterMap, List.mem_range, TableCell.covers, decide_eq_true_eq]
  constructor
  · rintro ⟨a, ha, b, hb, h⟩
    split at h
    · simp at h
    · split at h
      · simp only [Option.some.injEq, Prod.mk.injEq] at h
        omega
      · simp at h
  · rintro ⟨h1, h2⟩
    refine ⟨i - r, by omega, j - k, by omega, ?_⟩
    rw [if_neg (by omega), if_pos (by omega)]
    simp only [Option.some.injEq, Prod.mk.injEq]
    omega

/-- A row from the column `k` on. -/
theorem rowHtml_tiled (ht : Tiling rows columns cells) (hg : ∀ c ∈ cells, s.cellHtml c = some (g c)) {r : Nat} (hr : r < rows) :
    ∀ (n k : Nat) (cov : List (Nat × Nat)), k + n = columns → Marked cells rows columns r k cov →
    ∃ cov', s.rowHtml cells rows columns r n k cov = some (((List.range' k n).filterMap (startAt cells r)).flatMap (tdOf g), cov') ∧
      Marked cells rows columns r columns cov' := by
  intro n
  induction n with
  | zero =>
    intro k cov hk hm
    have : k = columns := by omega
    subst this
    exact ⟨cov, rfl, hm⟩
  | succ n ih =>
    intro k cov hkn hm
    have hk : k < columns := by omega
    obtain ⟨c, hc, hcov⟩ := ht.exists (r := r) (k := k) (by omega) (by omega) (by omega) (by omega)
    have hin := ht.inside c hc
    have hsp := ht.span c hc
    have hcv := hcov
    simp only [TableCell.covers, decide_eq_true_eq] at hcv
    rw [List.range'_succ, List.filterMap_cons]
    unfold Store.rowHtml
    by_cases hs : c.row = (r : Int) ∧ c.column = (k : Int)
    · have hno : (r, k) ∉ cov := by
        intro hmem
        obtain ⟨b, hb, b1, b2, b3⟩ := (hm r k hr hk).mp hmem
        have := ht.unique hc hb hcov b1
        subst this
        exact b2 hs
      have hfind := ht.startAt_some hc hs.1 hs.2
      have hm' : Marked cells rows columns r (k + 1) (htmlCovers rows columns r k c ++ cov) := by
        intro i j hi hj
        rw [List.mem_append, hm i j hi hj, mem_htmlCovers hs.1 hs.2 hi hj]
        constructor
        · rintro (⟨b1, b2⟩ | ⟨b, hb, b1, b2, b3⟩)
          · exact ⟨c, hc, b1, b2, by omega⟩
          · exact ⟨b, hb, b1, b2, by omega⟩
        · rintro ⟨b, hb, b1, b2, b3⟩
          by_cases e : b.row = (r : Int) ∧ b.column = (k : Int)
          · have hbs := ht.span b hb
            have : b.covers r k = true := by simp only [TableCell.covers, decide_eq_true_eq]; omega
            have := ht.unique hc hb hcov this
            subst this
            exact .inl ⟨b1, b2⟩
          · exact .inr ⟨b, hb, b1, b2, by omega⟩
      obtain ⟨cov', e1, e2⟩ := ih (k + 1) _ (by omega) hm'
      refine ⟨cov', ?_, e2⟩
      rw [if_neg hno, hfind]
      unfold startAt at hfind
      rw [hfind]
      simp only [hg c hc, Option.bind_some]
      unfold htmlCovers at e1
      rw [e1, Option.map_some, List.flatMap_cons]
      rfl
    · have hyes : (r, k) ∈ cov := (hm r k hr hk).mpr ⟨c, hc, hcov, hs, by omega⟩
      have hnone : startAt cells r k = none := by
        cases hf : startAt cells r k with
        | none => rfl
        | some b =>
          obtain ⟨h1, h2, h3⟩ := startAt_mem hf
          have hbs := ht.span b h1
          have : b.covers r k = true := by simp only [TableCell.covers, decide_eq_true_eq]; omega
          have := ht.unique hc h1 hcov this
          subst this
          exact absurd ⟨h2, h3⟩ hs
      have hm' : Marked cells rows columns r (k + 1) cov := by
        intro i j hi hj
        rw [hm i j hi hj]
        constructor
        · rintro ⟨b, hb, b1, b2, b3⟩
          exact ⟨b, hb, b1, b2, by omega⟩
        · rintro ⟨b, hb, b1, b2, b3⟩
          refine ⟨b, hb, b1, b2, ?_⟩
          by_cases e : b.row = (r : Int) ∧ b.column = (k : Int)
          · rw [ht.startAt_some hb e.1 e.2] at hnone; cases hnone
          · omega
      obtain ⟨cov', e1, e2⟩ := ih (k + 1) cov (by omega) hm'
      refine ⟨cov', ?_, e2⟩
      rw [if_pos hyes, hnone]
      exact e1

theorem rowsHtml_tiled (ht : Tiling rows columns cells) (hg : ∀ c ∈ cells, s.cellHtml c = some (g c)) :
    ∀ (n r : Nat) (cov : List (Nat × Nat)), r + n = rows → Marked cells rows columns r 0 cov →
    s.rowsHtml cells rows columns n r cov = some ((List.range' r n).flatMap fun r =>
      htmlElem "tr".toList (((List.range' 0 columns).filterMap (startAt cells r)).flatMap (tdOf g))) := by
  intro n
  induction n with
  | zero => intro r cov _ _; rfl
  | succ n ih =>
    intro r cov hr hm
    obtain ⟨cov1, e1, m1⟩ := rowHtml_tiled ht hg (r := r) (by omega) columns 0 cov (by omega) hm
    unfold Store.rowsHtml
    simp only [e1, Option.bind_some]
    rw [ih (r + 1) cov1 (by omega) (m1.nextRow ht)]
    rfl

theorem rowTok (g : TableCell → List Char) (cs : List SCell) (h : ∀ c ∈ cs, CellTok (tdOf g c.cell) (docCellOf c)) :
    ∃ ts, Tok ((cs.map SCell.cell).flatMap (tdOf g)) ts ∧
    ∀ rows cells, TabRuns ts ⟨rows, some cells, none⟩ ⟨rows, some ((cs.map docCellOf).reverse ++ cells), none⟩ := by
  induction cs with
  | nil => exact ⟨[], Tok.nil, fun _ _ => rfl⟩
  | cons c cs ih =>
    obtain ⟨us, u1, u2⟩ := ih fun y hy => h y (by simp [hy])
    obtain ⟨ts, t1, t2⟩ := h c (by simp)
    refine ⟨ts ++ us, by simpa using t1.append u1, fun rows cells => ?_⟩
    have := (t2 rows cells).append (u2 rows (docCellOf c :: cells))
    simpa using this

theorem rowsTok (g : TableCell → List Char) (css : List (List SCell)) (h : ∀ cs ∈ css, ∀ c ∈ cs, CellTok (tdOf g c.cell) (docCellOf c)) :
    ∃ ts, Tok (css.flatMap fun cs => htmlElem "tr".toList ((cs.map SCell.cell).flatMap (tdOf g))) ts ∧
    ∀ rows, TabRuns ts ⟨rows, none, none⟩ ⟨(css.map fun cs => cs.map docCellOf).reverse ++ rows, none, none⟩ := by
  induction css with
  | nil => exact ⟨[], Tok.nil, fun _ => rfl⟩
  | cons cs css ih =>
    obtain ⟨us, u1, u2⟩ := ih fun y hy => h y (by simp [hy])
    obtain ⟨ts, t1, t2⟩ := rowTok g cs (h cs (by simp))
    have k1 : Tok ('<' :: "tr".toList ++ ['>']) [.tag "tr".toList] := Tok.tag _ (by decide)
    have k2 : Tok ('<' :: "/tr".toList ++ ['>']) [.tag "/tr".toList] := Tok.tag _ (by decide)
    refine ⟨[.tag "tr".toList] ++ (ts ++ ([.tag "/tr".toList] ++ us)), ?_, fun rows => ?_⟩
    · have := k1.append (t1.append (k2.append u1))
      rw [List.flatMap_cons]
      simpa [htmlElem] using this
    · have e1 : TabRuns [.tag "tr".toList] ⟨rows, none, none⟩ ⟨rows, some [], none⟩ := rfl
      have e2 := t2 rows []
      rw [List.map_cons]
      generalize cs.map docCellOf = X at *
      have e3 : TabRuns [.tag "/tr".toList] ⟨rows, some (X.reverse ++ []), none⟩ ⟨(X.reverse ++ []).reverse :: rows, none, none⟩ := rfl
      have := e1.append (e2.append (e3.append (u2 _)))
      simpa using this

/-! ### Tables -/

theorem tableTag (b : Option Int) : ∃ body, Tok ("<table".toList ++ (match b with
      | some b => " border=\"".toList ++ showInt b ++ ['"']
      | none => []) ++ ['>']) [.tag body] ∧ (HtmlToken.tag body).opensTable = true := by
  cases b with
  | none => exact ⟨"table".toList, Tok.tag _ (by decide), rfl⟩
  | some b =>
    have hb := Tok.tagAttr "table border=".toList (showInt b) (by decide) (fun h => absurd (int_safe b '"' h) (by simp))
    refine ⟨_, by simpa using hb, ?_⟩
    have e : elemOf ("table border=".toList ++ '"' :: showInt b ++ ['"']) = ⟨"table".toList, " border=".toList ++ '"' :: (showInt b ++ ['"'])⟩ := by
      simp [elemOf]
    unfold HtmlToken.opensTable
    simp [elemOf]

theorem Arranged.tablePg (h : Arranged s d f items) (ht : t ∈ tablesOf items) (hs : t.Sound)
    (hl : ∀ c ∈ t.cells, s.frameBlocks c.frame = c.paras.map SPara.id) (outer : List HtmlElem) :
    ∃ x, s.tableHtml t.table.id = some x ∧ Pg x outer [] [(0, docTableOf t)] := by
  obtain ⟨hr, hk, hti⟩ := hs
  obtain ⟨rows, hrows⟩ : ∃ n : Nat, t.table.rows = n := ⟨t.table.rows.toNat, by omega⟩
  obtain ⟨columns, hcols⟩ : ∃ n : Nat, t.table.columns = n := ⟨t.table.columns.toNat, by omega⟩
  rw [hrows, hcols] at hti
  have hperm : (s.tableCellsOf t.table.id).Perm (t.cells.map SCell.cell) := (h.table t ht).getCells
  have hti' := hti.perm hperm
  have hg : ∀ c ∈ s.tableCellsOf t.table.id, s.cellHtml c = some ((s.cellHtml c).getD []) := by
    intro x hx
    obtain ⟨c, hc, rfl⟩ := List.mem_map.mp (hperm.mem_iff.mp hx)
    obtain ⟨y, h1, _⟩ := h.cellTok ht hc (hl c hc)
    rw [h1]; rfl
  have hrow := rowsHtml_tiled hti' (g := fun c => (s.cellHtml c).getD []) hg rows 0 [] (by omega) (marked_nil hti')
  have hstart : ∀ r : Nat, (List.range' 0 columns).filterMap (startAt (s.tableCellsOf t.table.id) r) =
      (t.cells.filter fun c => decide (c.cell.row = (r : Int))).map SCell.cell := by
    intro r
    rw [← row_cells hti (h.table t ht).order]
    congr 1
    funext k
    exact hti.startAt_perm hperm r k
  obtain ⟨ts, t1, t2⟩ := rowsTok (fun c => (s.cellHtml c).getD []) ((List.range rows).map fun (r : Nat) => t.cells.filter fun c => decide (c.cell.row = (r : Int))) (by
    intro cs hcs c hc
    obtain ⟨r, _, rfl⟩ := List.mem_map.mp hcs
    have hc := (List.mem_filter.mp hc).1
    obtain ⟨y, h1, h2⟩ := h.cellTok ht hc (hl c hc)
    exact h2 _ (by rw [h1]; rfl))
  obtain ⟨body, k1, k3⟩ := tableTag t.table.fmtBorder
  have k2 : Tok ('<' :: "/table".toList ++ ['>']) [.tag "/table".toList] := Tok.tag _ (by decide)
  refine ⟨_, by
    unfold Store.tableHtml
    rw [(h.table t ht).table, Option.bind_some]
    dsimp only
    rw [hrows, hcols, Int.toNat_natCast, Int.toNat_natCast, hrow, Option.map_some], [.tag body] ++ (ts ++ [.tag "/table".toList]), ?_, ?_⟩
  · have := k1.append (t1.append k2)
    rw [List.append_assoc]
    refine (congrArg (fun x => Tok x _) ?_).mp this
    congr 1
    congr 1
    rw [List.flatMap_map, List.range_eq_range']
    congr 1
    funext r
    rw [hstart r]
  · intro ps0 tabs
    have e1 : PRuns [.tag body] ⟨⟨outer, false, ps0⟩, none, tabs⟩ ⟨⟨outer, false, ps0⟩, some {}, tabs⟩ := by
      refine PRuns.cons (b := ⟨⟨outer, false, ps0⟩, some {}, tabs⟩) ?_ rfl
      unfold PageReader.step
      dsimp only
      rw [if_pos ⟨k3, rfl⟩]
    have e2 := TabRuns.page (base := ⟨outer, false, ps0⟩) (tabs := tabs) ts (t2 [])
    refine e1.append (e2.append (PRuns.cons (b := ⟨⟨outer, false, ps0⟩, none, (ps0.length, docTableOf t) :: tabs⟩) ?_ ?_))
    · unfold PageReader.step
      dsimp only
      rw [if_pos ⟨rfl, rfl, rfl⟩]
      simp [docTableOf, hrows, List.map_map, Function.comp_def]
    · simp [PRuns]

/-! ### The document -/

theorem placedTables_shift (k n : Nat) (items : List SItem) :
    (placedTables n items).map (fun t => (t.1 + k, t.2)) = placedTables (n + k) items := by
  induction items generalizing n with
  | nil => rfl
  | cons i items ih =>
    cases i with
    | para p => show (placedTables (n + 1) items).map _ = placedTables (n + k + 1) items; rw [ih]; congr 1; omega
    | table t => show _ :: (placedTables n items).map _ = _ :: placedTables (n + k) items; rw [ih]

/-- The main frame from some item on, `pend` being the paragraphs collected. -/
theorem Arranged.childrenPg {num : Int → List Char} (h : Arranged s d f items) (hn : ∀ n, StyleSafe (num n)) (hc : SafeColors (flowParas items))
    (hcode : ∀ p ∈ topParas items, p.shape.fmtIsCodeBlock = some true → itemOf s.lists p = none)
    {outer : List HtmlElem} (ho : Clean outer) (sub : Nat → Option (List Char))
    (hsub : ∀ t ∈ tablesOf items, ∃ x, sub t.anchor = some x ∧ Pg x outer [] [(0, docTableOf t)])
    (hq : ∀ t ∈ tablesOf items, ∀ fr, s.frames t.anchor = some fr → fr.fmtIsBlockquote ≠ some true) (its : List SItem) :
    ∀ pend : List SPara, (∀ p ∈ pend, p ∈ topParas items) → (∀ p ∈ topParas its, p ∈ topParas items) → (∀ t ∈ tablesOf its, t ∈ tablesOf items) →
    (∀ A p q B, pend.map .para ++ its = A ++ .para p :: .para q :: B → ∀ m n, itemOf s.lists p = some m → itemOf s.lists q = some n → m = n) →
    ∃ x, s.childrenHtml num (s.cellFrameIds d.id) sub (its.map SItem.entry) (pend.map fun p => p.entity (s.storedPos p)) = some x ∧
      Pg x outer ((pend ++ topParas its).map (pageOf num s.lists)) (placedTables pend.length its) := by
  have hP := h.pages
  have htop : ∀ q ∈ topParas items, q ∈ flowParas items := fun q hq => (topParas_sublist items).subset hq
  have hrun : ∀ pend : List SPara, (∀ p ∈ pend, p ∈ topParas items) →
      (∀ A p q B, pend = A ++ p :: q :: B → ∀ m n, itemOf s.lists p = some m → itemOf s.lists q = some n → m = n) →
      ∃ x, s.blocksHtml num (pend.map fun p => p.entity (s.storedPos p)).length (pend.map fun p => p.entity (s.storedPos p)) = some x ∧
        Pg x outer (pend.map (pageOf num s.lists)) [] := by
    intro pend hp hadj
    obtain ⟨x, x1, x2⟩ := hP.blocksHtml hn hc ho (pend.map fun p => p.entity (s.storedPos p)).length pend (fun q hq => htop q (hp q hq)) (by simp)
    refine ⟨x, x1, ?_⟩
    rw [exportedPage_regular none pend (fun p hpp => hcode p (hp p hpp)) hadj (by intro _ _ _ _ h; cases h)] at x2
    exact x2.pg
  induction its with
  | nil =>
    intro pend hp _ _ hadj
    obtain ⟨x, x1, x2⟩ := hrun pend hp (fun A p q B e => hadj (A.map .para) p q (B.map .para) (by rw [e]; simp))
    refine ⟨x, x1, ?_⟩
    have e : topParas [] = [] := rfl
    rw [e, List.append_nil]
    exact x2
  | cons i its ih =>
    intro pend hp ht htb hadj
    cases i with
    | para p =>
      have hpt : p ∈ topParas items := ht p (by simp [topParas])
      have h0 := h.positive p (htop p hpt)
      obtain ⟨x, x1, x2⟩ := ih (pend ++ [p]) (by
          intro q hq
          rcases List.mem_append.mp hq with hq | hq
          · exact hp q hq
          · rw [List.mem_singleton.mp hq]; exact hpt)
        (fun q hq => ht q (List.mem_cons_of_mem _ hq)) (fun t h => htb t h)
        (fun A q r B e => hadj A q r B (by rw [← e]; simp))
      refine ⟨x, ?_, ?_⟩
      · rw [List.map_cons]
        unfold Store.childrenHtml
        show (if ((p.id : Nat) : Int) > 0 then _ else _) = _
        rw [if_pos (by omega)]
        show (match s.blocks ((p.id : Nat) : Int).toNat with | some b => _ | none => _) = _
        rw [Int.toNat_natCast, hP.stored (htop p hpt)]
        dsimp only
        rw [← x1, List.map_append]
        rfl
      · have e : topParas (.para p :: its) = p :: topParas its := rfl
        rw [e]
        have e2 : placedTables pend.length (.para p :: its) = placedTables (pend ++ [p]).length its := by simp [placedTables]
        rw [e2]
        simpa using x2
    | table t =>
      have htm : t ∈ tablesOf items := htb t (by simp [tablesOf])
      obtain ⟨y, y1, y2⟩ := hsub t htm
      obtain ⟨x, x1, x2⟩ := hrun pend hp (fun A p q B e => hadj (A.map .para) p q (B.map .para ++ .table t :: its) (by rw [e]; simp))
      obtain ⟨z, z1, z2⟩ := ih [] (by simp) ht (fun u hu => htb u (List.mem_cons_of_mem _ hu))
        (fun A q r B e => hadj (pend.map .para ++ .table t :: A) q r B (by
          have e : its = A ++ .para q :: .para r :: B := by simpa using e
          rw [e]; simp))
      obtain ⟨fr, f1, f2⟩ := (h.table t htm).anchor
      have hn' := (List.nodup_cons.mp h.distinct.1).2
      refine ⟨x ++ y ++ z, ?_, ?_⟩
      · rw [List.map_cons]
        unfold Store.childrenHtml
        show (if (-(t.anchor : Int)) > 0 then _ else _) = _
        rw [if_neg (by omega), x1, Option.bind_some]
        have hneg : (-(SItem.entry (.table t))).toNat = t.anchor := by simp [SItem.entry]
        rw [hneg, if_neg (by
          rw [← List.contains_iff_mem, h.cellFrameIds]
          rintro ⟨u, hu, hg⟩
          exact (tableFrames_nodup hn').2 t htm u hu hg), f1]
        dsimp only
        rw [y1, Option.bind_some, if_neg (hq t htm fr f1)]
        have z1 : s.childrenHtml num (s.cellFrameIds d.id) sub (its.map SItem.entry) [] = some z := z1
        rw [z1]; rfl
      · have e : topParas (.table t :: its) = topParas its := rfl
        have := (x2.append y2).append z2
        rw [e]
        have e2 : placedTables pend.length (.table t :: its) = (pend.length, docTableOf t) :: (placedTables 0 its).map fun u => (u.1 + pend.length, u.2) := by
          rw [placedTables_shift]; simp [placedTables]
        rw [e2]
        simpa using this

/-- The page of a document with tables. -/
theorem Arranged.exportHtml {num : Int → List Char} (h : Arranged s d f items) (hs : ∀ t ∈ tablesOf items, t.Sound)
    (hl : ∀ t ∈ tablesOf items, ∀ c ∈ t.cells, s.frameBlocks c.frame = c.paras.map SPara.id)
    (hq : ∀ t ∈ tablesOf items, ∀ fr, s.frames t.anchor = some fr → fr.fmtIsBlockquote ≠ some true)
    (hn : ∀ n, StyleSafe (num n)) (hc : SafeColors (flowParas items))
    (hcode : ∀ p ∈ topParas items, p.shape.fmtIsCodeBlock = some true → itemOf s.lists p = none)
    (hadj : ∀ A p q B, items = A ++ .para p :: .para q :: B → ∀ m n, itemOf s.lists p = some m → itemOf s.lists q = some n → m = n) :
    ∃ (x : List Char) (tabs : List STable), s.exportHtml num = some x ∧ tabs.Perm (tablesOf items) ∧
      readPage x = some ((topParas items).map (pageOf num s.lists),
        placedTables 0 items ++ tabs.map fun t => ((topParas items).length, docTableOf t)) := by
  have hout : Clean [⟨"body".toList, []⟩, ⟨"html".toList, []⟩] := by
    intro e he
    simp only [List.mem_cons, List.not_mem_nil, or_false] at he
    rcases he with rfl | rfl <;> decide
  obtain ⟨rest, r1, r2⟩ := h.frames
  obtain ⟨fr, f1, f2, f3, f4, f5, f6, f7⟩ := h.frame
  have hn' := h.distinct.1
  rw [List.nodup_cons] at hn'
  have hkeys : ∃ k, s.frames.keys.length = k + 1 := by
    have hm : f ∈ s.frames.keys := (s.frames.mem f).mpr (by rw [f1]; rfl)
    exact ⟨s.frames.keys.length - 1, by have := List.length_pos_iff_exists_mem.mpr ⟨f, hm⟩; omega⟩
  obtain ⟨k, hk⟩ := hkeys
  have hanchor : ∀ n, ∀ t ∈ tablesOf items, ∃ x, s.frameHtml num (s.cellFrameIds d.id) (n + 1) t.anchor = some x ∧
      Pg x [⟨"body".toList, []⟩, ⟨"html".toList, []⟩] [] [(0, docTableOf t)] := by
    intro n t ht
    obtain ⟨x, x1, x2⟩ := h.tablePg ht (hs t ht) (hl t ht) [⟨"body".toList, []⟩, ⟨"html".toList, []⟩]
    obtain ⟨ar, a1, a2, a3, a4, a5, a6⟩ := (h.table t ht).anchor
    refine ⟨x, ?_, x2⟩
    unfold Store.frameHtml
    rw [a1, Option.bind_some, a6]
    exact x1
  obtain ⟨x, x1, x2⟩ := h.childrenPg hn hc hcode hout (s.frameHtml num (s.cellFrameIds d.id) (k + 1)) (hanchor k) hq items []
    (by simp) (fun _ h => h) (fun _ h => h) (by simpa using hadj)
  have hne : items ≠ [] := by
    intro e; exact h.nonempty (by rw [e]; rfl)
  have hmain : s.frameHtml num (s.cellFrameIds d.id) (s.frames.keys.length + 1) f = some x := by
    rw [hk]
    unfold Store.frameHtml
    rw [f1, Option.bind_some, f4]
    dsimp only
    rw [if_neg (by rw [f6]; simpa using hne), f6]
    exact x1
  have hothers : ∀ gs : List Nat, (∀ g ∈ gs, g ∈ tableFrames items) →
      ∃ l, mapOpt (s.frameHtml num (s.cellFrameIds d.id) (s.frames.keys.length + 1)) (gs.filter fun g => decide (g ∉ s.cellFrameIds d.id)) = some l ∧
        Pg l.flatten [⟨"body".toList, []⟩, ⟨"html".toList, []⟩] [] ((gs.filterMap (tableAt items)).map fun t => (0, docTableOf t)) := by
    intro gs
    induction gs with
    | nil => intro _; exact ⟨[], rfl, Pg.nil _⟩
    | cons g gs ih =>
      intro hgs
      obtain ⟨l, l1, l2⟩ := ih fun y hy => hgs y (by simp [hy])
      obtain ⟨t, ht, e⟩ := mem_tableFrames_iff.mp (hgs g (by simp))
      rw [List.filterMap_cons]
      rcases e with rfl | e
      · have hno : t.anchor ∉ s.cellFrameIds d.id := by
          rw [← List.contains_iff_mem, h.cellFrameIds]
          rintro ⟨u, hu, hg⟩
          exact (tableFrames_nodup hn'.2).2 t ht u hu hg
        obtain ⟨y, y1, y2⟩ := hanchor s.frames.keys.length t ht
        rw [tableAt_anchor hn'.2 ht, List.filter_cons_of_pos (by simpa using hno)]
        refine ⟨y :: l, by unfold mapOpt; rw [y1, l1]; rfl, ?_⟩
        have := y2.append l2
        simpa [Function.comp_def] using this
      · have hyes : g ∈ s.cellFrameIds d.id := by
          rw [← List.contains_iff_mem, h.cellFrameIds]; exact ⟨t, ht, e⟩
        rw [tableAt_cell hn'.2 ht e, List.filter_cons_of_neg (by simpa using hyes)]
        exact ⟨l, l1, l2⟩
  obtain ⟨l, l1, l2⟩ := hothers rest fun g hg => r2.mem_iff.mp hg
  have hfno : f ∉ s.cellFrameIds d.id := by
    rw [← List.contains_iff_mem, h.cellFrameIds]
    rintro ⟨t, ht, hg⟩
    exact hn'.1 (mem_tableFrames_iff.mpr ⟨t, ht, .inr hg⟩)
  refine ⟨"<html><head><meta charset=\"utf-8\"></head><body>".toList ++ (x ++ l.flatten) ++ "</body></html>".toList, rest.filterMap (tableAt items), ?_, ?_, ?_⟩
  · unfold Store.exportHtml
    have hd : s.docId = some d.id := h.docId
    rw [hd, Option.bind_some]
    have hf : s.docFrames d.id = f :: rest := by unfold Store.docFrames; rw [h.document, Option.map_some, Option.getD_some, r1]
    dsimp only
    rw [hf, List.filter_cons_of_pos (by simpa using hfno)]
    unfold mapOpt
    rw [hmain, l1]
    rfl
  · have := r2.filterMap (tableAt items)
    rwa [tableFrames_tables hn'.2] at this
  · have := readPage_page (x2.append l2)
    rw [this]
    simp [Function.comp_def]

end Verif

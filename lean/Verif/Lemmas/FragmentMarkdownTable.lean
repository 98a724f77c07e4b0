import Verif.Lemmas.FragmentMarkdown
/- The Markdown of a fragment: tables, and the order of the parts. -/
namespace Verif
open Store

/-! ### Pipes -/

/-- Put `x` before the first. -/
def headPut (x : List Char) : List (List Char) → List (List Char)
  | p :: ps => (x ++ p) :: ps
  | [] => [x]

theorem pipes_ne_nil (e : Bool) (x : List Char) : mdPipes e x ≠ [] := by
  cases x with
  | nil => simp [mdPipes]
  | cons c x =>
    unfold mdPipes
    split
    · simp
    · split <;> simp

theorem pipes_step {e : Bool} {c : Char} {x : List Char} (h : ¬ (e = false ∧ c = '|')) :
    mdPipes e (c :: x) = headPut [c] (mdPipes (!e && c = '\\') x) := by
  rw [mdPipes, if_neg h]
  split <;> rename_i h' <;> rw [h'] <;> rfl

theorem headPut_put (x y : List Char) (ps : List (List Char)) : headPut x (headPut y ps) = headPut (x ++ y) ps := by
  cases ps <;> simp [headPut]

/-- No pipe that is not escaped, whatever follows. -/
def PipeSafe (x : List Char) : Prop := ∀ y, mdPipes false (x ++ y) = headPut x (mdPipes false y)

theorem PipeSafe.nil : PipeSafe [] := by
  intro y
  cases h : mdPipes false y with
  | nil => exact absurd h (pipes_ne_nil _ _)
  | cons p ps => exact h

theorem PipeSafe.append {x y : List Char} (hx : PipeSafe x) (hy : PipeSafe y) : PipeSafe (x ++ y) := by
  intro z
  rw [List.append_assoc, hx, hy, headPut_put]

/-- Text without pipes, with a character behind it. -/
theorem PipeSafe.raw {x : List Char} {c : Char} (h : '|' ∉ x) (h1 : c ≠ '|') (h2 : c ≠ '\\') : PipeSafe (x ++ [c]) := by
  intro y
  have key : ∀ (x : List Char) (e : Bool), '|' ∉ x → mdPipes e (x ++ [c] ++ y) = headPut (x ++ [c]) (mdPipes false y) := by
    intro x
    induction x with
    | nil =>
      intro e _
      show mdPipes e (c :: y) = _
      rw [pipes_step (fun h => h1 h.2)]
      simp [h2]
    | cons a x ih =>
      intro e ha
      simp only [List.mem_cons, not_or] at ha
      show mdPipes e (a :: (x ++ [c] ++ y)) = _
      rw [pipes_step (fun h => ha.1 h.2.symm), ih _ ha.2, headPut_put]
      rfl
  exact key x false h

theorem PipeSafe.char {c : Char} (h1 : c ≠ '|') (h2 : c ≠ '\\') : PipeSafe [c] := PipeSafe.raw (x := []) (by simp) h1 h2

theorem PipeSafe.chars {x : List Char} (h : ∀ c ∈ x, c ≠ '|' ∧ c ≠ '\\') : PipeSafe x := by
  induction x with
  | nil => exact .nil
  | cons c x ih => exact (PipeSafe.char (h c (by simp)).1 (h c (by simp)).2).append (ih fun a ha => h a (by simp [ha]))

theorem PipeSafe.pair (c : Char) : PipeSafe ['\\', c] := by
  intro y
  show mdPipes false ('\\' :: c :: y) = _
  rw [pipes_step (by decide)]
  show headPut _ (mdPipes true (c :: y)) = _
  rw [pipes_step (by simp), headPut_put]
  rfl

theorem PipeSafe.escape (t : List Char) : PipeSafe (escapeMarkdownExport t) := by
  induction t with
  | nil => exact .nil
  | cons c t ih =>
    rw [escape_cons]
    refine PipeSafe.append ?_ ih
    unfold mdCode
    split
    · exact .pair c
    · rename_i h
      exact .char (fun e => h (by rw [e]; decide)) (fun e => h (by rw [e]; decide))

theorem PipeSafe.marked {t : List Char} {f : CharFormat} (h0 : t ≠ []) (h1 : mdIsCode f = true → '|' ∉ t) (h2 : ∀ u, f.anchorHref = some u → '|' ∉ u.toList) :
    PipeSafe (mdSegment (.text t f)) := by
  rw [mdSegment_text f h0, mdMarks_eq]
  have hb : PipeSafe (mdBaseText f t) := by
    unfold mdBaseText
    split
    · rename_i hc
      rw [show '`' :: t ++ ['`'] = ['`'] ++ (t ++ ['`']) by simp]
      exact (PipeSafe.char (by decide) (by decide)).append (.raw (h1 hc) (by decide) (by decide))
    · exact .escape t
  have hs : PipeSafe (mdStruck f (mdBaseText f t)) := by
    unfold mdStruck
    split
    · have : PipeSafe "~~".toList := .chars (by decide)
      exact (this.append hb).append this
    · exact hb
  have hst : PipeSafe (mdStarText f (mdStruck f (mdBaseText f t))) := by
    have : PipeSafe (List.replicate (mdStars f) '*') := .chars (by
      intro c hc
      rw [(List.mem_replicate.mp hc).2]
      decide)
    exact (this.append hs).append this
  cases hl : f.anchorHref with
  | none => exact hst
  | some u =>
    show PipeSafe ('[' :: mdStarText f (mdStruck f (mdBaseText f t)) ++ "](".toList ++ u.toList ++ [')'])
    rw [show ∀ x : List Char, '[' :: x ++ "](".toList ++ u.toList ++ [')'] = ['['] ++ (x ++ ("](".toList ++ u.toList ++ [')'])) by intro x; simp]
    refine (PipeSafe.char (by decide) (by decide)).append (hst.append (.raw ?_ (by decide) (by decide)))
    simp only [List.mem_append, not_or]
    exact ⟨by decide, h2 u hl⟩

theorem FragLine.pipes {es : List (Segment CharFormat)} (h : FragLine es)
    (hp : ∀ s f, Segment.text s f ∈ es → (mdIsCode f = true → '|' ∉ s) ∧ (∀ u, f.anchorHref = some u → '|' ∉ u.toList)) : PipeSafe (fragMdInline es) := by
  rw [h.inline_full]
  have hm : ∀ g ∈ fullElements es, g ∈ es := fun g hg => (List.mem_filter.mp hg).1
  have ht := h.full_texts
  generalize fullElements es = segs at *
  induction segs with
  | nil => exact .nil
  | cons g segs ih =>
    obtain ⟨t, f, rfl, h0⟩ := ht g (by simp)
    rw [List.flatMap_cons]
    obtain ⟨p1, p2⟩ := hp t f (hm _ (by simp))
    exact (PipeSafe.marked h0 p1 p2).append (ih (fun g' hg' => hm g' (by simp [hg'])) fun g' hg' => ht g' (by simp [hg']))

/-! ### Rows -/

theorem row_form (cells : List (List Char)) (h : cells ≠ []) : fragMdRow cells = '|' :: cells.flatMap fun c => ' ' :: c ++ " |".toList := by
  unfold fragMdRow
  have key : ∀ (cells : List (List Char)) (c : List Char), ' ' :: (joinWith " | ".toList (c :: cells) ++ " |".toList) = (c :: cells).flatMap fun c => ' ' :: c ++ " |".toList := by
    intro cells
    induction cells with
    | nil => intro c; simp [joinWith]
    | cons d cells ih =>
      intro c
      have := ih d
      rw [List.flatMap_cons, ← this]
      simp [joinWith]
  cases cells with
  | nil => exact absurd rfl h
  | cons c cells =>
    have := key cells c
    show '|' :: ' ' :: (joinWith " | ".toList (c :: cells) ++ " |".toList) = _
    rw [this]

theorem row_pipes (cells : List (List Char)) (h : ∀ c ∈ cells, PipeSafe c) :
    mdPipes false ('|' :: cells.flatMap fun c => ' ' :: c ++ " |".toList) = [] :: (cells.map fun c => ' ' :: c ++ [' ']) ++ [[]] := by
  rw [mdPipes, if_pos ⟨rfl, rfl⟩, List.cons_append]
  congr 1
  induction cells with
  | nil => rfl
  | cons c cells ih =>
    rw [List.flatMap_cons, List.map_cons, List.cons_append]
    have hs : PipeSafe (' ' :: c ++ [' ']) := by
      have : PipeSafe [' '] := .char (by decide) (by decide)
      exact (this.append (h c (by simp))).append this
    rw [show ∀ y : List Char, ' ' :: (c ++ " |".toList) ++ y = ' ' :: c ++ [' '] ++ '|' :: y by intro y; simp]
    rw [hs, mdPipes, if_pos ⟨rfl, rfl⟩, ih fun c' hc' => h c' (by simp [hc'])]
    simp [headPut]

theorem trim_cell {c : List Char} (h : c = [] ∨ (HeadOk c ∧ LastOk c)) : mdTrim (' ' :: c ++ [' ']) = c := by
  have hw : isWhite ' ' = true := by decide
  rcases h with rfl | ⟨⟨a, e1, w1⟩, ⟨b, e2, w2⟩⟩
  · simp [mdTrim, hw]
  · unfold mdTrim
    have k1 : (' ' :: c ++ [' ']).dropWhile isWhite = c ++ [' '] := by
      rw [List.cons_append, List.dropWhile_cons, if_pos hw]
      cases c with
      | nil => cases e1
      | cons x c => cases e1; rw [List.cons_append, List.dropWhile_cons, if_neg (by rw [w1]; simp)]
    rw [k1, List.reverse_append, List.reverse_singleton, List.singleton_append, List.dropWhile_cons, if_pos hw]
    have : c.reverse.head? = some b := by rw [List.head?_reverse, e2]
    cases hr : c.reverse with
    | nil => rw [hr] at this; cases this
    | cons x r =>
      rw [hr] at this
      cases this
      rw [List.dropWhile_cons, if_neg (by rw [w2]; simp), ← hr, List.reverse_reverse]

theorem md_row_cells (cells : List (List Char)) (h0 : cells ≠ []) (h : ∀ c ∈ cells, PipeSafe c) (h' : ∀ c ∈ cells, c = [] ∨ (HeadOk c ∧ LastOk c)) :
    mdRowCells (fragMdRow cells) = some cells := by
  unfold mdRowCells
  rw [row_form cells h0, row_pipes cells h]
  simp only [List.cons_append]
  rw [if_pos (by simp), List.dropLast_concat, List.map_map]
  congr 1
  conv => rhs; rw [← List.map_id cells]
  apply List.map_congr_left
  intro c hc
  exact trim_cell (h' c hc)

/-! ### Tables -/

theorem find_last {α : Type} (p : α → Bool) (l : List α) : l.reverse.find? p = (l.filter p).getLast? := by
  rw [← List.head?_filter, List.filter_reverse, List.head?_reverse]

theorem inline_append (a b : List (Segment CharFormat)) : fragMdInline (a ++ b) = fragMdInline a ++ fragMdInline b := by
  simp [fragMdInline]

theorem cell_inline (bs : List FragBlock) : joinWith [' '] (bs.map fun b => fragMdInline b.elements) = fragMdInline (cellElements bs) := by
  have key : ∀ (bs : List FragBlock) (b : FragBlock), joinWith [' '] ((b :: bs).map fun b => fragMdInline b.elements) = fragMdInline (cellElements (b :: bs)) := by
    intro bs
    induction bs with
    | nil => intro b; simp [joinWith, cellElements]
    | cons c bs ih =>
      intro b
      have := ih c
      rw [cellElements, inline_append, show fragMdInline (.text [' '] {} :: cellElements (c :: bs)) = [' '] ++ fragMdInline (cellElements (c :: bs)) from rfl, ← this]
      · simp [joinWith]
      · simp
  cases bs with
  | nil => rfl
  | cons b bs => exact key bs b

theorem at_inline (t : FragTable) (r c : Nat) : fragMdAt t r c = fragMdInline (cellElements (blocksAt t r c)) := by
  unfold fragMdAt blocksAt
  rw [find_last]
  cases h : (t.cells.filter fun x => decide (x.row = r ∧ x.column = c)).getLast? with
  | none => rfl
  | some x => exact cell_inline x.blocks

theorem FragLine.nil : FragLine [] :=
  ⟨by simp, by intro L t f t' f' R e; simp [fullElements] at e, ⟨by simp [elementChars], by intro L a b R e; simp [elementChars] at e, by simp [elementChars], by simp [elementChars]⟩⟩

theorem FragTableFit.at {t : FragTable} (h : FragTableFit t) (r c : Nat) : FragLine (cellElements (blocksAt t r c)) ∧
    ∀ s f, Segment.text s f ∈ cellElements (blocksAt t r c) → (mdIsCode f = true → '|' ∉ s) ∧ (∀ u, f.anchorHref = some u → '|' ∉ u.toList) := by
  unfold blocksAt
  cases he : (t.cells.filter fun x => decide (x.row = r ∧ x.column = c)).getLast? with
  | none => exact ⟨FragLine.nil, by intro s f hm; simp [cellElements] at hm⟩
  | some x => exact h.cells x (List.mem_filter.mp (List.mem_of_getLast? he)).1

theorem rule_cells (n : Nat) (h : 0 < n) : mdRowCells ('|' :: (List.replicate n " --- |".toList).flatten) = some (List.replicate n "---".toList) := by
  have e : '|' :: (List.replicate n " --- |".toList).flatten = fragMdRow (List.replicate n "---".toList) := by
    rw [row_form _ (by simp; omega)]
    congr 1
    clear h
    induction n with
    | zero => rfl
    | succ n ih => rw [List.replicate_succ, List.replicate_succ, List.flatten_cons, List.flatMap_cons, ih]; rfl
  rw [e, md_row_cells _ (by simp; omega)]
  · intro c hc
    rw [(List.mem_replicate.mp hc).2]
    exact .chars (by decide)
  · intro c hc
    rw [(List.mem_replicate.mp hc).2]
    exact .inr ⟨⟨'-', rfl, by decide⟩, ⟨'-', rfl, by decide⟩⟩

theorem split_join (ls : List (List Char)) (h0 : ls ≠ []) (h : ∀ l ∈ ls, '\n' ∉ l) : splitOnChar '\n' (joinWith ['\n'] ls) = ls := by
  have key : ∀ (ls : List (List Char)) (l : List Char), (∀ x ∈ l :: ls, '\n' ∉ x) → splitOnChar '\n' (joinWith ['\n'] (l :: ls)) = l :: ls := by
    intro ls
    induction ls with
    | nil => intro l h; simp [joinWith, splitOnChar_none (h l (by simp))]
    | cons m ls ih =>
      intro l h
      have := ih m fun x hx => h x (by simp [hx])
      rw [show joinWith ['\n'] (l :: m :: ls) = l ++ '\n' :: joinWith ['\n'] (m :: ls) by simp [joinWith], splitOnChar_snoc, this, splitOnChar_none (h l (by simp))]
      rfl
  cases ls with
  | nil => exact absurd rfl h0
  | cons l ls => exact key ls l h

theorem FragTableFit.part {t : FragTable} (h : FragTableFit t) :
    ∃ m : MdBlock, PartOk (fragMdTable t, false) [m] ∧ m.Good ∧ (m.elements 0 []).map ParsedElement.fineAll = [mdFragTable t] := by
  have hex : ∀ rc : Nat × Nat, ∃ q : List MdInline, mdCellText (fragMdAt t rc.1 rc.2) = some q ∧ NoRepeats {} q ∧ NoBreak q ∧
      fineSpans (spansOf q) = (elementChars (cellElements (blocksAt t rc.1 rc.2))).map mdSpan := by
    intro rc
    obtain ⟨q, t2, t3, t4, t5, xs, t6, t7, t8⟩ := (h.at rc.1 rc.2).1.reads
    rw [at_inline]
    have hspans : spansOf q = xs := by unfold spansOf; rw [t6]; simp
    by_cases h0 : elementChars (cellElements (blocksAt t rc.1 rc.2)) = []
    · refine ⟨[], by rw [t3 h0]; rfl, trivial, by simp [NoBreak, inlineSpans], ?_⟩
      rw [h0]; rfl
    · obtain ⟨e1, e2⟩ := t4 h0
      refine ⟨q, ?_, t8, by unfold NoBreak; rw [t6]; simp, by rw [hspans, t7]⟩
      unfold mdCellText
      rw [if_neg, mdText_of t2 e1 e2]
      obtain ⟨c, e, _⟩ := e1
      intro e'; rw [e'] at e; cases e
  obtain ⟨q, hq⟩ := Classical.axiomOfChoice hex
  have hq1 := fun r c => (hq (r, c)).1
  have hq2 := fun r c => (hq (r, c)).2
  have hcell : ∀ r c, PipeSafe (fragMdAt t r c) ∧ (fragMdAt t r c = [] ∨ (HeadOk (fragMdAt t r c) ∧ LastOk (fragMdAt t r c))) ∧ '\n' ∉ fragMdAt t r c := by
    intro r c
    obtain ⟨a1, a2⟩ := h.at r c
    obtain ⟨q, t2, t3, t4, t5, _⟩ := a1.reads
    rw [at_inline]
    refine ⟨a1.pipes a2, ?_, t5⟩
    by_cases h0 : elementChars (cellElements (blocksAt t r c)) = []
    · exact .inl (t3 h0)
    · exact .inr (t4 h0)
  have hcols := h.columns
  have hrow : ∀ r, mdRow t.columns (fragMdRow ((List.range t.columns).map fun c => fragMdAt t r c)) = some ((List.range t.columns).map fun c => q (r, c)) := by
    intro r
    unfold mdRow
    rw [md_row_cells _ (by simp; omega)]
    · simp only [Option.bind_some, List.length_map, List.length_range, if_true]
      generalize List.range t.columns = l
      induction l with
      | nil => rfl
      | cons c l ih => simp only [List.map_cons, mapOpt, ih]; rw [hq1 r c]; rfl
    · intro x hx
      obtain ⟨c, _, rfl⟩ := List.mem_map.mp hx
      exact (hcell r c).1
    · intro x hx
      obtain ⟨c, _, rfl⟩ := List.mem_map.mp hx
      exact (hcell r c).2.1
  have hnl : ∀ r, '\n' ∉ fragMdRow ((List.range t.columns).map fun c => fragMdAt t r c) := by
    intro r hm
    rw [row_form _ (by simp; omega)] at hm
    rcases List.mem_cons.mp hm with e | hm
    · revert e; decide
    · obtain ⟨x, hx, hm⟩ := List.mem_flatMap.mp hm
      obtain ⟨c, _, rfl⟩ := List.mem_map.mp hx
      simp at hm
      exact (hcell r c).2.2 hm
  have hne : ∀ r, fragMdRow ((List.range t.columns).map fun c => fragMdAt t r c) ≠ [] := by
    intro r; rw [row_form _ (by simp; omega)]; simp
  have hrows := h.rows
  obtain ⟨n, hn⟩ : ∃ n, t.rows = n + 1 := ⟨t.rows - 1, by omega⟩
  have hrule : '\n' ∉ '|' :: (List.replicate t.columns " --- |".toList).flatten := by
    intro hm
    rcases List.mem_cons.mp hm with e | hm
    · revert e; decide
    · obtain ⟨x, hx, hm⟩ := List.mem_flatten.mp hm
      rw [(List.mem_replicate.mp hx).2] at hm
      revert hm; decide
  have htab : fragMdTable t = joinWith ['\n'] (fragMdRow ((List.range t.columns).map fun c => fragMdAt t 0 c) ::
      ('|' :: (List.replicate t.columns " --- |".toList).flatten) :: (List.range n).map fun r => fragMdRow ((List.range t.columns).map fun c => fragMdAt t (r + 1) c)) := by
    unfold fragMdTable
    rw [hn]
  have hsp := split_join (fragMdRow ((List.range t.columns).map fun c => fragMdAt t 0 c) ::
      ('|' :: (List.replicate t.columns " --- |".toList).flatten) :: (List.range n).map fun r => fragMdRow ((List.range t.columns).map fun c => fragMdAt t (r + 1) c)) (by simp) (by
    intro l hl
    rcases List.mem_cons.mp hl with rfl | hl
    · exact hnl 0
    rcases List.mem_cons.mp hl with rfl | hl
    · exact hrule
    · obtain ⟨r, _, rfl⟩ := List.mem_map.mp hl
      exact hnl (r + 1))
  rw [← htab] at hsp
  refine ⟨.table ((List.range t.columns).map fun c => q (0, c)) ((List.range n).map fun r => (List.range t.columns).map fun c => q (r + 1, c)), .inr ?_, ?_, ?_⟩
  · simp only [hsp]
    refine ⟨?_, ?_, by intro e; cases e⟩
    · intro l hl
      rcases List.mem_cons.mp hl with rfl | hl
      · exact hne 0
      rcases List.mem_cons.mp hl with rfl | hl
      · simp
      · obtain ⟨r, _, rfl⟩ := List.mem_map.mp hl
        exact hne (r + 1)
    · unfold mdChunk
      simp only
      rw [if_pos (by rfl)]
      unfold mdTableBlock
      simp only [rule_cells _ hcols, Option.bind_some, List.length_replicate, hrow 0]
      rw [if_pos]
      · have : mapOpt (mdRow t.columns) ((List.range n).map fun r => fragMdRow ((List.range t.columns).map fun c => fragMdAt t (r + 1) c)) =
            some ((List.range n).map fun r => (List.range t.columns).map fun c => q (r + 1, c)) := by
          generalize List.range n = l
          induction l with
          | nil => rfl
          | cons r l ih => simp only [List.map_cons, mapOpt, ih]; rw [hrow (r + 1)]; rfl
        rw [this]; rfl
      · refine ⟨by simp; omega, ?_⟩
        intro r hr
        rw [(List.mem_replicate.mp hr).2]
        exact ⟨by decide, by decide⟩
  · show ∀ r ∈ _, ∀ xs ∈ r, _
    intro r hr xs hxs
    have : ∃ i, r = (List.range t.columns).map fun c => q (i, c) := by
      rcases List.mem_cons.mp hr with rfl | hr
      · exact ⟨0, rfl⟩
      · obtain ⟨i, _, rfl⟩ := List.mem_map.mp hr
        exact ⟨i + 1, rfl⟩
    obtain ⟨i, rfl⟩ := this
    obtain ⟨c, _, rfl⟩ := List.mem_map.mp hxs
    exact ⟨(hq2 i c).1, (hq2 i c).2.1⟩
  · unfold mdFragTable
    rw [hn, List.range_succ_eq_map]
    have hr : ∀ r, ((List.range t.columns).map fun c => q (r, c)).map (fun xs => fineSpans (spansOf xs)) =
        (List.range t.columns).map fun c => (elementChars (cellElements (blocksAt t r c))).map mdSpan := by
      intro r
      rw [List.map_map]
      apply List.map_congr_left
      intro c _
      exact (hq2 r c).2.2
    simp only [MdBlock.elements, List.map_cons, List.map_nil, ParsedElement.fineAll, List.map_map]
    congr 1
    congr 1
    congr 1
    · rw [← hr 0, List.map_map]; rfl
    · apply List.map_congr_left
      intro r _
      have := hr (r + 1)
      rw [List.map_map] at this
      simp only [Function.comp_def, List.map_map] at this ⊢
      exact this

/-! ### The order of the parts -/

/-- Parts and what they are read as. -/
def Renders (parts : List (List Char × Bool)) (els : List ParsedElement) : Prop :=
  ∃ ps : List ((List Char × Bool) × List MdBlock), parts = ps.map Prod.fst ∧ (∀ x ∈ ps, PartOk x.1 x.2 ∧ ∀ m ∈ x.2, m.Good) ∧
    ((ps.flatMap Prod.snd).flatMap (MdBlock.elements 0 [])).map ParsedElement.fineAll = els

theorem Renders.nil : Renders [] [] := ⟨[], rfl, by simp, rfl⟩

theorem Renders.snoc {parts : List (List Char × Bool)} {els new : List ParsedElement} {p : List Char × Bool} {bs : List MdBlock} (h : Renders parts els)
    (hp : PartOk p bs) (hg : ∀ m ∈ bs, m.Good) (he : (bs.flatMap (MdBlock.elements 0 [])).map ParsedElement.fineAll = new) :
    Renders (parts ++ [p]) (els ++ new) := by
  obtain ⟨ps, e1, e2, e3⟩ := h
  refine ⟨ps ++ [(p, bs)], by rw [e1]; simp, ?_, ?_⟩
  · intro x hx
    rcases List.mem_append.mp hx with hx | hx
    · exact e2 x hx
    · simp at hx; rw [hx]; exact ⟨hp, hg⟩
  · simp only [List.flatMap_append, List.map_append, e3]
    congr 1
    simpa using he

theorem Renders.tables {ts : List FragTable} (ht : ∀ t ∈ ts, FragTableFit t) {x : FragMd} {els : List ParsedElement} (h : Renders x.parts els) :
    Renders (ts.foldl FragMd.table x).parts (els ++ ts.map mdFragTable) ∧ (ts.foldl FragMd.table x).counter ≤ x.counter := by
  induction ts generalizing x els with
  | nil => exact ⟨by simpa using h, Nat.le_refl _⟩
  | cons t ts ih =>
    obtain ⟨m, k1, k2, k3⟩ := (ht t (by simp)).part
    have := h.snoc (new := [mdFragTable t]) k1 (by simpa using k2) (by rw [List.flatMap_singleton]; exact k3)
    obtain ⟨i1, i2⟩ := ih (fun t' ht' => ht t' (by simp [ht'])) (x := x.table t) this
    refine ⟨by simpa using i1, ?_⟩
    exact Nat.le_trans i2 (Nat.zero_le _)

/-- The parts in their order. -/
def partsFrom : Nat → List FragBlock → List FragTable → List ParsedElement
  | _, [], ts => ts.map mdFragTable
  | i, b :: bs, ts => (ts.takeWhile fun t => t.index ≤ i).map mdFragTable ++ fragShown b ++ partsFrom (i + 1) bs (ts.dropWhile fun t => t.index ≤ i)

theorem Renders.loop {bs : List FragBlock} (hb : ∀ b ∈ bs, FragFit b) {ts : List FragTable} (ht : ∀ t ∈ ts, FragTableFit t) (i : Nat) {x : FragMd}
    {els : List ParsedElement} (h : Renders x.parts els) (hx : x.counter + bs.length < 10 ^ 9) :
    Renders (fragMdParts i bs ts x).parts (els ++ partsFrom i bs ts) := by
  induction bs generalizing i ts x els with
  | nil => exact (Renders.tables ht h).1
  | cons b bs ih =>
    have h1 : ∀ t ∈ ts.takeWhile fun t => decide (t.index ≤ i), FragTableFit t := fun t h' => ht t ((List.takeWhile_sublist _).subset h')
    have h2 : ∀ t ∈ ts.dropWhile fun t => decide (t.index ≤ i), FragTableFit t := fun t h' => ht t ((List.dropWhile_sublist _).subset h')
    obtain ⟨j1, j2⟩ := Renders.tables h1 h
    rw [List.length_cons] at hx
    obtain ⟨p, ms, k1, k2, k3, k4, k5⟩ := (hb b (by simp)).part ((ts.takeWhile fun t => decide (t.index ≤ i)).foldl FragMd.table x) (by omega)
    have := j1.snoc k3 k4 k5
    rw [← k1] at this
    have := ih (fun b' hb' => hb b' (by simp [hb'])) h2 (i + 1) this (by omega)
    unfold fragMdParts partsFrom
    simpa using this

theorem sorted_split {ts : List FragTable} (hs : ts.Pairwise fun x y => (x.index : Int) ≤ y.index) (i : Nat) (hi : ∀ t ∈ ts, i ≤ t.index) :
    ts.takeWhile (fun t => decide (t.index ≤ i)) = ts.filter (fun t => decide (t.index = i)) ∧
    ts.dropWhile (fun t => decide (t.index ≤ i)) = ts.filter (fun t => decide (i + 1 ≤ t.index)) := by
  induction ts with
  | nil => exact ⟨rfl, rfl⟩
  | cons t ts ih =>
    rw [List.pairwise_cons] at hs
    have h0 := hi t (by simp)
    by_cases h : t.index ≤ i
    · obtain ⟨e1, e2⟩ := ih hs.2 fun t' ht' => hi t' (by simp [ht'])
      have he : t.index = i := by omega
      rw [List.takeWhile_cons, List.dropWhile_cons, if_pos (by simpa using h), if_pos (by simpa using h), e1, e2, List.filter_cons, List.filter_cons,
        if_pos (by simpa using he), if_neg (by simp; omega)]
      exact ⟨rfl, rfl⟩
    · have hall : ∀ t' ∈ t :: ts, i + 1 ≤ t'.index := by
        intro t' ht'
        rcases List.mem_cons.mp ht' with rfl | ht'
        · omega
        · have := hs.1 t' ht'; omega
      rw [List.takeWhile_cons, List.dropWhile_cons, if_neg (by simpa using h), if_neg (by simpa using h)]
      refine ⟨?_, ?_⟩
      · symm
        rw [List.filter_eq_nil_iff]
        intro t' ht'
        have := hall t' ht'
        simp; omega
      · symm
        rw [List.filter_eq_self]
        intro t' ht'
        simpa using hall t' ht'

theorem filter_filter_eq {ts : List FragTable} {i j : Nat} (h : i ≤ j) :
    (ts.filter fun t => decide (i ≤ t.index)).filter (fun t => decide (t.index = j)) = ts.filter fun t => decide (t.index = j) := by
  rw [List.filter_filter]
  apply List.filter_congr
  intro t _
  by_cases e : t.index = j
  · simp [e, h]
  · simp [e]

theorem fragShown_at (b : FragBlock) : (([b].filter fun b => decide (elementChars b.elements ≠ [])).map fun b => ParsedElement.block (mdFragBlock b)) = fragShown b := by
  unfold fragShown
  by_cases h : elementChars b.elements = [] <;> simp [h]

/-- What comes from place `i` on. -/
def placesFrom (i k : Nat) (bs : List FragBlock) (ts : List FragTable) : List ParsedElement :=
  (List.range k).flatMap fun j => (ts.filter fun t => decide (t.index = i + j)).map mdFragTable ++
    ((bs[j]?.toList.filter fun b => decide (elementChars b.elements ≠ [])).map fun b => ParsedElement.block (mdFragBlock b))

theorem places_tables (ts : List FragTable) (hs : ts.Pairwise fun x y => (x.index : Int) ≤ y.index) (k i : Nat) (hi : ∀ t ∈ ts, i ≤ t.index)
    (hk : ∀ t ∈ ts, t.index < i + k) : placesFrom i k [] ts = ts.map mdFragTable := by
  induction k generalizing i ts with
  | zero =>
    cases ts with
    | nil => rfl
    | cons t ts =>
      have := hi t (by simp)
      have := hk t (by simp)
      omega
  | succ k ih =>
    obtain ⟨e1, e2⟩ := sorted_split hs i hi
    have hsub : (ts.filter fun t => decide (i + 1 ≤ t.index)).Sublist ts := List.filter_sublist
    have := ih (ts.filter fun t => decide (i + 1 ≤ t.index)) (hs.sublist hsub) (i + 1) (by intro t ht; simpa using (List.mem_filter.mp ht).2)
      (by intro t ht; have := hk t (hsub.subset ht); omega)
    unfold placesFrom at this ⊢
    rw [List.range_succ_eq_map, List.flatMap_cons, List.flatMap_map]
    conv => rhs; rw [← List.takeWhile_append_dropWhile (p := fun t : FragTable => decide (t.index ≤ i)) (l := ts), e1, e2, List.map_append, ← this]
    congr 1
    · simp
    · congr 1
      funext j
      rw [filter_filter_eq (by omega)]
      simp [Nat.add_right_comm, Nat.add_assoc]

theorem places_from (bs : List FragBlock) : ∀ (ts : List FragTable) (k i : Nat), ts.Pairwise (fun x y => (x.index : Int) ≤ y.index) → (∀ t ∈ ts, i ≤ t.index) →
    (∀ t ∈ ts, t.index < i + k) → bs.length < k → partsFrom i bs ts = placesFrom i k bs ts := by
  induction bs with
  | nil => intro ts k i hs hi hk _; exact (places_tables ts hs k i hi hk).symm
  | cons b bs ih =>
    intro ts k i hs hi hk hl
    obtain ⟨k, rfl⟩ : ∃ k', k = k' + 1 := ⟨k - 1, by omega⟩
    obtain ⟨e1, e2⟩ := sorted_split hs i hi
    have hsub : (ts.filter fun t => decide (i + 1 ≤ t.index)).Sublist ts := List.filter_sublist
    have := ih (ts.filter fun t => decide (i + 1 ≤ t.index)) k (i + 1) (hs.sublist hsub) (by intro t ht; simpa using (List.mem_filter.mp ht).2)
      (by intro t ht; have := hk t (hsub.subset ht); omega) (by simp at hl; omega)
    unfold partsFrom
    rw [e1, e2, this]
    unfold placesFrom
    rw [List.range_succ_eq_map, List.flatMap_cons, List.flatMap_map]
    congr 1
    · rw [← fragShown_at]; rfl
    · congr 1
      funext j
      rw [filter_filter_eq (by omega)]
      simp [Nat.add_right_comm, Nat.add_assoc]

theorem parts_elements (bs : List FragBlock) (ts : List FragTable) (n : Nat) (h1 : bs.length ≤ n) (h2 : ∀ t ∈ ts, t.index ≤ n) :
    partsFrom 0 bs (sortByKey (fun t => (t.index : Int)) ts) = mdFragElements bs ts n := by
  rw [places_from bs _ (n + 1) 0 (sortByKey_sorted _ _) (by simp) (by intro t ht; have := h2 t (mem_sortByKey.mp ht); omega) (by omega)]
  unfold placesFrom mdFragElements
  congr 1
  funext j
  rw [Nat.zero_add]
  congr 2
  have := sortByKey_stable (fun t : FragTable => (t.index : Int)) ts (j : Int)
  simp only [Int.natCast_inj] at this
  exact this

/-- The whole fragment. -/
theorem Fragment.readsBack {bs : List FragBlock} {ts : List FragTable} (hb : ∀ b ∈ bs, FragFit b) (ht : ∀ t ∈ ts, FragTableFit t) (hl : bs.length < 10 ^ 9)
    (n : Nat) (h1 : bs.length ≤ n) (h2 : ∀ t ∈ ts, t.index ≤ n) (plain : List Char) :
    ∃ ms, readGroups (Fragment.toMarkdown ⟨some (bs, ts), plain⟩) = some ms ∧ GoodBlocks ms ∧
      (blockElements 0 [] ms).map ParsedElement.fineAll = mdFragElements bs ts n := by
  have hr := Renders.loop hb (ts := sortByKey (fun t => (t.index : Int)) ts) (fun t h => ht t (mem_sortByKey.mp h)) 0 (x := {}) Renders.nil (by simpa using hl)
  rw [List.nil_append, parts_elements bs ts n h1 h2] at hr
  obtain ⟨ps, e1, e2, e3⟩ := hr
  have hread := read_parts ps fun x hx => (e2 x hx).1
  obtain ⟨g1, g2⟩ := fold_elements (ps.flatMap Prod.snd) (by
    intro m hm
    obtain ⟨x, hx, hm⟩ := List.mem_flatMap.mp hm
    exact (e2 x hx).2 m hm)
  refine ⟨_, ?_, g1, by rw [g2, e3]⟩
  show readGroups (fragMdJoin (fragMdParts 0 bs (sortByKey (fun t => (t.index : Int)) ts) {}).parts) = _
  rw [e1, hread, List.flatMap_def]

end Verif

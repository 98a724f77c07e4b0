import Verif.Spec.HtmlDom
/- Walking an HTML tree. -/
namespace Verif

theorem FmtState.enter_enter (k : FmtState) (tag : HTag) (at' : HAttrs) : (k.enter tag at').enter tag at' = k.enter tag at' := by
  cases tag <;> simp [FmtState.enter]
  cases at'.href <;> simp

theorem dropWhile_idem (p : Char → Bool) (l : List Char) : (l.dropWhile p).dropWhile p = l.dropWhile p := by
  induction l with
  | nil => rfl
  | cons a l ih =>
    rw [List.dropWhile_cons]
    split
    · exact ih
    · rename_i h
      rw [List.dropWhile_cons, if_neg h]

theorem dropWhile_head {p : Char → Bool} {l m : List Char} {a : Char} (h : l.dropWhile p = a :: m) : p a = false := by
  induction l with
  | nil => simp at h
  | cons b l ih =>
    rw [List.dropWhile_cons] at h
    split at h
    · exact ih h
    · rename_i hb
      simp only [List.cons.injEq] at h
      rw [← h.1]
      simpa using hb

theorem trimText_trimText (t : List Char) : trimText (trimText t) = trimText t := by
  -- the trimmed text begins with a character that is not white
  have key : (trimText t).dropWhile isWhite = trimText t := by
    generalize hr : trimText t = r
    cases r with
    | nil => rfl
    | cons a m =>
      rw [List.dropWhile_cons, if_neg]
      cases hd : t.dropWhile isWhite with
      | nil => simp [trimText, hd] at hr
      | cons b u =>
        have hb := dropWhile_head hd
        have hlast : ((b :: u).reverse.dropWhile isWhite).reverse = a :: m := by rw [← hd]; exact hr
        have hsuf : (a :: m) <+: (b :: u) := by
          rw [← hlast, ← List.reverse_suffix, List.reverse_reverse]
          exact List.dropWhile_suffix isWhite
        obtain ⟨w, hw⟩ := hsuf
        simp only [List.cons_append, List.cons.injEq] at hw
        rw [hw.1, hb]
        simp
  show (((trimText t).dropWhile isWhite).reverse.dropWhile isWhite).reverse = _
  rw [key]
  unfold trimText
  rw [List.reverse_reverse, dropWhile_idem]

theorem seenSpan_spans (k : FmtState) (t : List Char) : (k.spans t).filterMap seenSpan = (seenSpan (k.span t)).toList := by
  unfold FmtState.spans
  split
  · rename_i h
    rw [h]
    simp [seenSpan, FmtState.span, trimText]
  · cases h : seenSpan (k.span t) <;> simp [h]

theorem seenSpan_trim (k : FmtState) (t : List Char) : seenSpan (k.span (trimText t)) = seenSpan (k.span t) := by
  have h0 : trimText [] = [] := rfl
  by_cases h : trimText t = [] <;> simp [seenSpan, FmtState.span, trimText_trimText, h, h0]

mutual
theorem cellNode_seen : ∀ (n : HNode) (d : Nat) (k : FmtState), d + n.height ≤ 256 →
    (cellNode d k n).filterMap seenSpan = n.inner k
  | .text t, d, k, _ => by rw [cellNode, HNode.inner, seenSpan_spans]
  | .elem tag at' kids, d, k, h => by
    rw [HNode.height] at h
    rw [cellNode, HNode.inner, if_neg (by simp only [maxDepth]; omega)]
    exact cellNodes_seen kids (d + 1) _ (by omega)
  | .other, d, k, _ => by rw [cellNode, HNode.inner]; rfl
theorem cellNodes_seen : ∀ (ns : List HNode) (d : Nat) (k : FmtState), d + heights ns ≤ 256 →
    (cellNodes d k ns).filterMap seenSpan = nodesInner k ns
  | [], d, k, _ => by rw [cellNodes, nodesInner]; rfl
  | n :: ns, d, k, h => by
    rw [heights] at h
    rw [cellNodes, nodesInner, List.filterMap_append, cellNode_seen n d k (by omega), cellNodes_seen ns d k (by omega)]
end

theorem cellOf_seen (kids : List HNode) (h : heights kids ≤ 256) : (cellOf kids).filterMap seenSpan = nodesInner {} kids := by
  have := cellNodes_seen kids 0 {} (by omega)
  unfold cellOf
  dsimp only
  split
  · rename_i h0
    rw [h0] at this
    rw [← this]
    simp [seenSpan, trimText]
  · exact this

theorem rowCells_seen : ∀ (ns : List HNode), heights ns ≤ 256 → (rowCells ns).flatten.filterMap seenSpan = rowInner ns := by
  intro ns
  induction ns with
  | nil => intro _; rfl
  | cons n ns ih =>
    intro h
    rw [heights] at h
    have ih := ih (by omega)
    cases n with
    | text t => exact ih
    | other => exact ih
    | elem tag at' kids =>
      rw [HNode.height] at h
      have e : rowCells (.elem tag at' kids :: ns) = (if tag = .cell then [cellOf kids] else []) ++ rowCells ns := by
        cases tag <;> simp [rowCells]
      have e' : rowInner (.elem tag at' kids :: ns) = (if tag = .cell then nodesInner {} kids else []) ++ rowInner ns := by
        cases tag <;> simp [rowInner]
      rw [e, e', List.flatten_append, List.filterMap_append, ih]
      congr 1
      split
      · simpa using cellOf_seen kids (by omega)
      · rfl

mutual
theorem rowsNode_seen : ∀ (n : HNode), n.height ≤ 256 → (rowsNode n).flatten.flatten.filterMap seenSpan = n.tableInner
  | .text t, _ => by simp [rowsNode, HNode.tableInner]
  | .other, _ => by simp [rowsNode, HNode.tableInner]
  | .elem tag at' kids, h => by
    rw [HNode.height] at h
    have ih := rowsNodes_seen kids (by omega)
    have ih2 := rowCells_seen kids (by omega)
    cases tag <;> simp only [rowsNode, HNode.tableInner, List.flatten_nil, List.filterMap_nil]
    · exact ih
    · exact ih
    · rw [← ih2]
      split
      · rename_i h0
        simp [h0]
      · simp
theorem rowsNodes_seen : ∀ (ns : List HNode), heights ns ≤ 256 → (rowsNodes ns).flatten.flatten.filterMap seenSpan = tableInners ns
  | [], _ => by simp [rowsNodes, tableInners]
  | n :: ns, h => by
    rw [heights] at h
    rw [rowsNodes, tableInners, List.flatten_append, List.flatten_append, List.filterMap_append, rowsNode_seen n (by omega),
      rowsNodes_seen ns (by omega)]
end

theorem seenTexts_append (a b : List ParsedElement) : seenTexts (a ++ b) = seenTexts a ++ seenTexts b := by
  simp [seenTexts]

theorem seenTexts_block (b : ParsedBlock) : seenTexts [.block b] = b.spans.filterMap seenSpan := by
  simp [seenTexts, ParsedElement.spans]

/-- What is seen of an element from what is seen of its children. -/
theorem elemWalk_seen {kids : List HNode} {walk : Place → List ParsedElement} {collect : Place → List ParsedSpan × List ParsedElement}
    (hw : ∀ c : Place, c.depth + 2 * heights kids ≤ 256 → (seenTexts (walk c)).Perm (nodesTexts c.fmt kids))
    (hc : ∀ c : Place, c.depth + 2 * heights kids ≤ 256 →
      ((collect c).1.filterMap seenSpan ++ seenTexts (collect c).2).Perm (nodesTexts c.fmt kids))
    (c : Place) (tag : HTag) (at' : HAttrs) (h : c.depth + 1 + 2 * heights kids ≤ 256) :
    (seenTexts (elemWalk c tag at' kids walk collect)).Perm ((HNode.elem tag at' kids).texts c.fmt) := by
  have hb : ∀ (xs : List ParsedSpan) (es : List ParsedElement),
      seenTexts (blockOf c tag at' kids xs es) = xs.filterMap seenSpan ++ seenTexts es := by
    intro xs es
    unfold blockOf
    rw [seenTexts_append]
    congr 1
    split
    · rw [seenTexts_block]
    · rename_i h0
      have : xs = [] := by
        apply Classical.byContradiction
        intro hx
        exact h0 (Or.inl hx)
      rw [this]
      rfl
  have hd : ¬ c.depth > maxDepth := by simp only [maxDepth]; omega
  have hW := hw { c with depth := c.depth + 1, fmt := c.fmt.enter tag at' } (by dsimp only; omega)
  have hC := hc { c with depth := c.depth + 1, fmt := c.fmt.enter tag at' } (by dsimp only; omega)
  rw [← hb] at hC
  unfold elemWalk
  rw [if_neg hd]
  dsimp only
  cases tag <;> simp only [HTag.isBlock, HNode.texts, if_true, Bool.false_eq_true, if_false]
  case table =>
    rw [← rowsNodes_seen kids (by omega)]
    split
    · rename_i h0
      simp [h0, seenTexts]
    · simp [seenTexts, ParsedElement.spans]
  case br => simp [brBlock, seenTexts, ParsedElement.spans, seenSpan, trimText]
  case ul => exact hw { c with depth := c.depth + 1, fmt := c.fmt.enter .ul at', list := some .disc, lists := c.lists + 1 } (by dsimp only; omega)
  case ol => exact hw { c with depth := c.depth + 1, fmt := c.fmt.enter .ol at', list := some .decimal, lists := c.lists + 1 } (by dsimp only; omega)
  case blockquote =>
    exact hw { c with depth := c.depth + 1, fmt := c.fmt.enter .blockquote at', quotes := c.quotes + 1 } (by dsimp only; omega)
  all_goals first
    | exact hC
    | exact hW

theorem elem_texts_enter (tag : HTag) (at' : HAttrs) (kids : List HNode) (k : FmtState) :
    (HNode.elem tag at' kids).texts (k.enter tag at') = (HNode.elem tag at' kids).texts k := by
  cases tag <;> simp only [HNode.texts, FmtState.enter_enter]

mutual
theorem walkNode_seen : ∀ (n : HNode) (c : Place), c.depth + 2 * n.height ≤ 256 → (seenTexts (walkNode c n)).Perm (n.texts c.fmt)
  | .text t, c, h => by
    rw [walkNode, if_neg (by simp only [maxDepth]; omega), HNode.texts, bareText]
    split
    · rename_i h0
      simp [seenTexts, seenSpan, FmtState.span, h0]
    · rw [seenTexts_block]
      simp only [List.filterMap_cons, List.filterMap_nil, seenSpan_trim]
      cases seenSpan (c.fmt.span t) <;> simp
  | .elem tag at' kids, c, h => by
    rw [HNode.height] at h
    rw [walkNode]
    exact elemWalk_seen (fun c hc => walkNodes_seen kids c hc) (fun c hc => collectNodes_seen kids c hc) c tag at' (by omega)
  | .other, c, h => by rw [walkNode, HNode.texts]; exact List.Perm.nil
theorem walkNodes_seen : ∀ (ns : List HNode) (c : Place), c.depth + 2 * heights ns ≤ 256 →
    (seenTexts (walkNodes c ns)).Perm (nodesTexts c.fmt ns)
  | [], c, h => by rw [walkNodes, nodesTexts]; exact List.Perm.nil
  | n :: ns, c, h => by
    rw [heights] at h
    rw [walkNodes, nodesTexts, seenTexts_append]
    exact (walkNode_seen n c (by omega)).append (walkNodes_seen ns c (by omega))
theorem collectNode_seen : ∀ (n : HNode) (c : Place), c.depth + 2 * n.height ≤ 256 →
    ((collectNode c n).1.filterMap seenSpan ++ seenTexts (collectNode c n).2).Perm (n.texts c.fmt)
  | .text t, c, h => by
    rw [collectNode, HNode.texts]
    simp only [seenSpan_spans, seenTexts, List.flatMap_nil, List.filterMap_nil, List.append_nil]
    exact List.Perm.refl _
  | .elem tag at' kids, c, h => by
    rw [HNode.height] at h
    have h2 := elemWalk_seen (fun c hc => walkNodes_seen kids c hc) (fun c hc => collectNodes_seen kids c hc)
      { c with depth := c.depth + 1, fmt := c.fmt.enter tag at' } tag at' (by dsimp only; omega)
    have h3 := collectNodes_seen kids { c with depth := c.depth + 1, fmt := c.fmt.enter tag at' } (by dsimp only; omega)
    rw [elem_texts_enter] at h2
    rw [collectNode]
    split
    · rename_i hb
      subst hb
      simp [HNode.texts, seenTexts, seenSpan, trimText]
    · split
      · simpa using h2
      · rename_i hb hn
        have : (HNode.elem tag at' kids).texts c.fmt = nodesTexts (c.fmt.enter tag at') kids := by
          cases tag <;> simp [HTag.isNested] at hb hn <;> simp only [HNode.texts]
        rw [this]
        exact h3
  | .other, c, h => by rw [collectNode, HNode.texts]; exact List.Perm.nil
theorem collectNodes_seen : ∀ (ns : List HNode) (c : Place), c.depth + 2 * heights ns ≤ 256 →
    ((collectNodes c ns).1.filterMap seenSpan ++ seenTexts (collectNodes c ns).2).Perm (nodesTexts c.fmt ns)
  | [], c, h => by rw [collectNodes, nodesTexts]; exact List.Perm.nil
  | n :: ns, c, h => by
    rw [heights] at h
    have h1 := collectNode_seen n c (by omega)
    have h2 := collectNodes_seen ns c (by omega)
    rw [collectNodes, nodesTexts, if_neg (by simp only [maxDepth]; omega)]
    dsimp only
    rw [List.filterMap_append, seenTexts_append]
    refine List.Perm.trans ?_ (h1.append h2)
    simp only [List.append_assoc]
    apply List.Perm.append_left
    rw [← List.append_assoc, ← List.append_assoc]
    exact List.Perm.append_right _ List.perm_append_comm
end

/- Well-formed documents. -/

theorem heights_append (a b : List HNode) : heights (a ++ b) = max (heights a) (heights b) := by
  induction a with
  | nil => simp [heights]
  | cons n a ih => simp only [List.cons_append, heights, ih]; omega

theorem collectNodes_append (c : Place) (a b : List HNode) (h : c.depth ≤ 256) :
    collectNodes c (a ++ b) = ((collectNodes c a).1 ++ (collectNodes c b).1, (collectNodes c a).2 ++ (collectNodes c b).2) := by
  induction a with
  | nil => simp [collectNodes]
  | cons n a ih =>
    rw [List.cons_append, collectNodes, if_neg (by simp only [maxDepth]; omega), ih, collectNodes,
      if_neg (by simp only [maxDepth]; omega)]
    simp

mutual
theorem hin_collect : ∀ (x : HIn) (c : Place), x.Good → c.depth + x.node.height ≤ 256 →
    collectNode c x.node = (x.spans c.fmt, [])
  | .text t, c, _, _ => by simp [HIn.node, collectNode, HIn.spans, FmtState.spans]
  | .mark tag href xs, c, hg, h => by
    rw [HIn.Good] at hg
    rw [HIn.node, HNode.height] at h
    have ih := hins_collect xs { c with depth := c.depth + 1, fmt := c.fmt.enter tag { href := href } } hg.2 (by dsimp only; omega)
    have h1 : tag ≠ .br := by
      intro e
      rw [e] at hg
      exact absurd hg.1 (by decide)
    have h2 : ¬ tag.isNested = true := by
      have := hg.1
      cases tag <;> simp_all [HTag.isInline, HTag.isNested]
    rw [HIn.node, collectNode, if_neg h1, if_neg h2, ih, HIn.spans]
theorem hins_collect : ∀ (xs : List HIn) (c : Place), GoodIns xs → c.depth + heights (hinNodes xs) ≤ 256 →
    collectNodes c (hinNodes xs) = (hinSpans c.fmt xs, [])
  | [], c, _, _ => by simp [hinNodes, collectNodes, hinSpans]
  | x :: xs, c, hg, h => by
    rw [GoodIns] at hg
    rw [hinNodes, heights] at h
    rw [hinNodes, collectNodes, if_neg (by simp only [maxDepth]; omega), hin_collect x c hg.1 (by omega),
      hins_collect xs c hg.2 (by omega), hinSpans]
    simp
end

mutual
theorem hin_cell : ∀ (x : HIn) (d : Nat) (k : FmtState), d + x.node.height ≤ 256 → cellNode d k x.node = x.spans k
  | .text t, d, k, _ => by simp [HIn.node, cellNode, HIn.spans, FmtState.spans]
  | .mark tag href xs, d, k, h => by
    rw [HIn.node, HNode.height] at h
    rw [HIn.node, cellNode, if_neg (by simp only [maxDepth]; omega), HIn.spans]
    exact hins_cell xs (d + 1) _ (by omega)
theorem hins_cell : ∀ (xs : List HIn) (d : Nat) (k : FmtState), d + heights (hinNodes xs) ≤ 256 →
    cellNodes d k (hinNodes xs) = hinSpans k xs
  | [], d, k, _ => by simp [hinNodes, cellNodes, hinSpans]
  | x :: xs, d, k, h => by
    rw [hinNodes, heights] at h
    rw [hinNodes, cellNodes, hinSpans, hin_cell x d k (by omega), hins_cell xs d k (by omega)]
end

theorem rowCells_row (cells : List (List HIn)) (h : heights (cells.map fun xs => HNode.elem .cell {} (hinNodes xs)) ≤ 256) :
    rowCells (cells.map fun xs => HNode.elem .cell {} (hinNodes xs)) = cells.map cellText := by
  induction cells with
  | nil => rfl
  | cons xs cells ih =>
    rw [List.map_cons, heights, HNode.height] at h
    have ih := ih (by omega)
    have e : rowCells ((xs :: cells).map fun xs => HNode.elem .cell {} (hinNodes xs)) =
        cellOf (hinNodes xs) :: rowCells (cells.map fun xs => HNode.elem .cell {} (hinNodes xs)) := by simp [rowCells]
    rw [e, ih, List.map_cons, cellOf, hins_cell xs 0 {} (by omega)]
    rfl

theorem rowsNode_row (cells : List (List HIn)) (h : (rowNode cells).height ≤ 256) (h0 : cells ≠ []) :
    rowsNode (rowNode cells) = [cells.map cellText] := by
  rw [rowNode, HNode.height] at h
  rw [rowNode, rowsNode, rowCells_row cells (by omega), if_neg (by simpa using h0)]

theorem rowsNodes_rows (rows : List (List (List HIn))) (h : heights (rows.map rowNode) ≤ 256) (h0 : ∀ r ∈ rows, r ≠ []) :
    rowsNodes (rows.map rowNode) = rows.map fun r => r.map cellText := by
  induction rows with
  | nil => simp [rowsNodes]
  | cons r rows ih =>
    rw [List.map_cons, heights] at h
    rw [List.map_cons, rowsNodes, rowsNode_row r (by omega) (h0 r List.mem_cons_self),
      ih (by omega) (fun r' hr => h0 r' (List.mem_cons_of_mem _ hr))]
    rfl

/-- The place is inside `q` quotes and the lists `lists`, and outside of every format. -/
structure Place.At (c : Place) (q : Nat) (lists : List ListStyle) : Prop where
  fmt : c.fmt = {}
  list : c.list = lists.head?
  quotes : c.quotes = q
  lists : c.lists = lists.length

theorem Place.At.deeper {c : Place} {q : Nat} {ls : List ListStyle} (h : c.At q ls) :
    Place.At { c with depth := c.depth + 1, fmt := {} } q ls := ⟨rfl, h.list, h.quotes, h.lists⟩

mutual
theorem hbl_walk : ∀ (b : HBl) (c : Place) (q : Nat) (ls : List ListStyle), b.Good → c.At q ls → c.depth + 2 * b.node.height ≤ 257 →
    walkNode c b.node = b.elements q ls
  | .para div st xs, c, q, ls, hg, hc, h => by
    rw [HBl.Good] at hg
    rw [HBl.node, HNode.height] at h
    have ih := hins_collect xs { c with depth := c.depth + 1, fmt := {} } hg.1 (by dsimp only; omega)
    rw [HBl.node, walkNode, elemWalk, if_neg (by simp only [maxDepth]; omega), HBl.elements]
    cases div <;> simp [HTag.isBlock, FmtState.enter, hc.fmt, ih, blockOf, hg.2, HTag.level, ParsedBlock.styled, ← hc.quotes]
  | .heading n st xs, c, q, ls, hg, hc, h => by
    rw [HBl.Good] at hg
    rw [HBl.node, HNode.height] at h
    have ih := hins_collect xs { c with depth := c.depth + 1, fmt := {} } hg (by dsimp only; omega)
    rw [HBl.node, walkNode, elemWalk, if_neg (by simp only [maxDepth]; omega), HBl.elements]
    simp [HTag.isBlock, FmtState.enter, hc.fmt, ih, blockOf, HTag.level, ParsedBlock.styled, ← hc.quotes]
  | .pre st l xs, c, q, ls, hg, hc, h => by
    rw [HBl.Good] at hg
    simp only [HBl.node, HNode.height, heights] at h
    have ih := hins_collect xs { c with depth := c.depth + 1 + 1, fmt := { code := true } } hg.1 (by dsimp only; omega)
    have e : collectNodes { c with depth := c.depth + 1, fmt := {} } [.elem .code { language := l } (hinNodes xs)] =
        (hinSpans { code := true } xs, []) := by
      rw [collectNodes, if_neg (by simp only [maxDepth]; omega), collectNode, if_neg (by decide), if_neg (by decide)]
      simp only [FmtState.enter, ih, collectNodes, List.append_nil]
    have el : codeLanguageOf [.elem .code { language := l } (hinNodes xs)] = l := by cases l <;> simp [codeLanguageOf]
    rw [HBl.node, walkNode, elemWalk, if_neg (by simp only [maxDepth]; omega), HBl.elements]
    simp [HTag.isBlock, FmtState.enter, hc.fmt, e, el, blockOf, HTag.level, ParsedBlock.styled, ← hc.quotes, hg.2]
  | .box bs, c, q, ls, hg, hc, h => by
    rw [HBl.Good] at hg
    rw [HBl.node, HNode.height] at h
    have ih := hbls_collect bs _ q ls hg hc.deeper (by dsimp only; omega)
    rw [HBl.node, walkNode, elemWalk, if_neg (by simp only [maxDepth]; omega), HBl.elements]
    simp [HTag.isBlock, FmtState.enter, hc.fmt, ih, blockOf, HTag.level]
  | .quote bs, c, q, ls, hg, hc, h => by
    rw [HBl.Good] at hg
    rw [HBl.node, HNode.height] at h
    have ih := hbls_walk bs { c with depth := c.depth + 1, fmt := {}, quotes := c.quotes + 1 } (q + 1) ls hg
      ⟨rfl, hc.list, by rw [hc.quotes], hc.lists⟩ (by dsimp only; omega)
    rw [HBl.node, walkNode, elemWalk, if_neg (by simp only [maxDepth]; omega), HBl.elements]
    simp only [FmtState.enter, hc.fmt]
    exact ih
  | .list ordered is, c, q, ls, hg, hc, h => by
    rw [HBl.Good] at hg
    rw [HBl.node, HNode.height] at h
    have ih := hits_walk is { c with depth := c.depth + 1, fmt := {}, list := some (htmlListStyle ordered), lists := c.lists + 1 } q
      (htmlListStyle ordered :: ls) hg ⟨rfl, rfl, hc.quotes, by simp [hc.lists]⟩ (by dsimp only; omega)
    rw [HBl.node, walkNode, elemWalk, if_neg (by simp only [maxDepth]; omega), HBl.elements, ← ih]
    cases ordered <;> simp [FmtState.enter, hc.fmt, htmlListStyle]
  | .table head rows, c, q, ls, hg, hc, h => by
    rw [HBl.Good] at hg
    simp only [HBl.node, HNode.height, heights] at h
    have e : rowsNodes [.elem .thead {} [rowNode head], .elem .tbody {} (rows.map rowNode)] =
        (head :: rows).map fun r => r.map cellText := by
      simp only [rowsNodes, rowsNode, List.append_nil]
      rw [rowsNode_row head (by omega) (hg head List.mem_cons_self).1,
        rowsNodes_rows rows (by omega) (fun r hr => (hg r (List.mem_cons_of_mem _ hr)).1)]
      rfl
    rw [HBl.node, walkNode, elemWalk, if_neg (by simp only [maxDepth]; omega), HBl.elements]
    simp only [e]
    simp
theorem hbls_walk : ∀ (bs : List HBl) (c : Place) (q : Nat) (ls : List ListStyle), GoodBls bs → c.At q ls →
    c.depth + 2 * heights (hblNodes bs) ≤ 257 → walkNodes c (hblNodes bs) = hblElements q ls bs
  | [], c, q, ls, _, _, _ => by simp [hblNodes, walkNodes, hblElements]
  | b :: bs, c, q, ls, hg, hc, h => by
    rw [GoodBls] at hg
    rw [hblNodes, heights] at h
    rw [hblNodes, walkNodes, hblElements, hbl_walk b c q ls hg.1 hc (by omega), hbls_walk bs c q ls hg.2 hc (by omega)]
theorem hbls_collect : ∀ (bs : List HBl) (c : Place) (q : Nat) (ls : List ListStyle), GoodBls bs → c.At q ls →
    c.depth + 2 * heights (hblNodes bs) ≤ 256 → collectNodes c (hblNodes bs) = ([], hblElements q ls bs)
  | [], c, q, ls, _, _, _ => by simp [hblNodes, collectNodes, hblElements]
  | b :: bs, c, q, ls, hg, hc, h => by
    rw [GoodBls] at hg
    rw [hblNodes, heights] at h
    have h1 := hbl_walk b { c with depth := c.depth + 1, fmt := {} } q ls hg.1 hc.deeper (by dsimp only; omega)
    have e : collectNode c b.node = ([], walkNode { c with depth := c.depth + 1, fmt := {} } b.node) := by
      cases b with
      | para div st xs =>
        cases div <;> simp [HBl.node, collectNode, HTag.isNested, walkNode, FmtState.enter, hc.fmt]
      | list o is =>
        cases o <;> simp [HBl.node, collectNode, HTag.isNested, walkNode, FmtState.enter, hc.fmt]
      | _ => simp [HBl.node, collectNode, HTag.isNested, walkNode, FmtState.enter, hc.fmt]
    rw [hblNodes, collectNodes, if_neg (by simp only [maxDepth]; omega), e, h1, hbls_collect bs c q ls hg.2 hc (by omega), hblElements]
    rfl
theorem hit_walk : ∀ (i : HIt) (c : Place) (q : Nat) (ls : List ListStyle), i.Good → c.At q ls → c.depth + 2 * i.node.height ≤ 257 →
    walkNode c i.node = i.elements q ls
  | .item st xs bs, c, q, ls, hg, hc, h => by
    rw [HIt.Good] at hg
    rw [HIt.node, HNode.height, heights_append] at h
    have h1 := hins_collect xs { c with depth := c.depth + 1, fmt := {} } hg.1 (by dsimp only; omega)
    have h2 := hbls_collect bs _ q ls hg.2.2 hc.deeper (by dsimp only; omega)
    have e := collectNodes_append { c with depth := c.depth + 1, fmt := {} } (hinNodes xs) (hblNodes bs) (by dsimp only; omega)
    rw [h1, h2] at e
    rw [HIt.node, walkNode, elemWalk, if_neg (by simp only [maxDepth]; omega), HIt.elements]
    simp [HTag.isBlock, FmtState.enter, hc.fmt, e, blockOf, HTag.level, ParsedBlock.styled, ← hc.quotes, ← hc.list, ← hc.lists, hg.2.1]
theorem hits_walk : ∀ (is : List HIt) (c : Place) (q : Nat) (ls : List ListStyle), GoodIts is → c.At q ls →
    c.depth + 2 * heights (hitNodes is) ≤ 257 → walkNodes c (hitNodes is) = hitElements q ls is
  | [], c, q, ls, _, _, _ => by simp [hitNodes, walkNodes, hitElements]
  | i :: is, c, q, ls, hg, hc, h => by
    rw [GoodIts] at hg
    rw [hitNodes, heights] at h
    rw [hitNodes, walkNodes, hitElements, hit_walk i c q ls hg.1 hc (by omega), hits_walk is c q ls hg.2 hc (by omega)]
end

end Verif

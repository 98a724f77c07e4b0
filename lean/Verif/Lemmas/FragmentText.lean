import Verif.Spec.FragmentText
import Verif.Lemmas.ExportHtml
import Verif.Props.Escape
/- Lemmas on fragments made from text and markup, and on their HTML. -/
namespace Verif
open Store

theorem spanElement_look (x : ParsedSpan) : ∃ fm, spanElement x = .text x.text fm ∧ fm = (spanLook false x).getD {} := by
  refine ⟨_, rfl, ?_⟩
  unfold spanLook
  cases x with
  | mk t b i u s c l =>
    cases b <;> cases i <;> cases u <;> cases s <;> cases c <;> cases l <;> simp

theorem spanElements_chars (xs : List ParsedSpan) :
    visibleChars ((xs.map spanElement).flatMap fun
      | .text t fm => styled t (some fm)
      | .image _ => []) = visibleChars (spansChars false xs) := by
  induction xs with
  | nil => rfl
  | cons x xs ih =>
    obtain ⟨fm, e1, e2⟩ := spanElement_look x
    unfold spansChars at ih ⊢
    simp only [List.map_cons, List.flatMap_cons, e1, visibleChars, List.map_append] at ih ⊢
    rw [ih]
    congr 1
    simp [styled, e2]

theorem spanElements_isText (xs : List ParsedSpan) (format : Block) (list : Option FragList) :
    (⟨xs.flatMap ParsedSpan.text, xs.map spanElement, format, list⟩ : FragBlock).IsText := by
  constructor
  · intro g hg
    obtain ⟨x, _, rfl⟩ := List.mem_map.mp hg
    exact ⟨_, _, rfl⟩
  · show xs.flatMap ParsedSpan.text = _
    unfold FragBlock.chars
    induction xs with
    | nil => rfl
    | cons x xs ih =>
      simp only [List.map_cons, List.flatMap_cons, List.map_append] at ih ⊢
      rw [← ih]
      congr 1
      simp [spanElement, styled, Function.comp_def]

theorem blockFrag_of (b : ParsedBlock) : FragOf b (blockFrag b) where
  text := spanElements_isText _ _ _
  chars := spanElements_chars b.spans
  format := rfl
  list := rfl

theorem elementFrags_fst (es : List ParsedElement) (n : Nat) : (elementFrags n es).1 = (parsedBlocks es).map blockFrag := by
  induction es generalizing n with
  | nil => rfl
  | cons e es ih => cases e <;> simp [elementFrags, parsedBlocks, ih]

theorem elementFrags_snd (es : List ParsedElement) (n : Nat) : (elementFrags n es).2 = (parsedTables n es).map fun x => tableFrag x.1 x.2 := by
  induction es generalizing n with
  | nil => rfl
  | cons e es ih => cases e <;> simp [elementFrags, parsedTables, ih]

theorem fragsOf_map (bs : List ParsedBlock) : FragsOf bs (bs.map blockFrag) := by
  induction bs with
  | nil => trivial
  | cons b bs ih => exact ⟨blockFrag_of b, ih⟩

theorem FragsOf.mem {bs : List ParsedBlock} {fbs : List FragBlock} (h : FragsOf bs fbs) : ∀ fb ∈ fbs, ∃ b ∈ bs, FragOf b fb := by
  induction bs generalizing fbs with
  | nil => cases fbs with
    | nil => simp
    | cons _ _ => exact h.elim
  | cons b bs ih => cases fbs with
    | nil => exact h.elim
    | cons x fbs =>
      intro fb hfb
      rcases List.mem_cons.mp hfb with rfl | hfb
      · exact ⟨b, by simp, h.1⟩
      · obtain ⟨b', hb', h'⟩ := ih h.2 fb hfb
        exact ⟨b', by simp [hb'], h'⟩

theorem FragOf.inlineOnly {b : ParsedBlock} {fb : FragBlock} (h : FragOf b fb) : fb.inlineOnly = plainBlock b := by
  unfold FragBlock.inlineOnly plainBlock
  rw [h.format, h.list]
  simp [parsedShape]

theorem foldl_max (l : List Nat) (m : Nat) : (∀ x ∈ l, x ≤ l.foldl max m) ∧ m ≤ l.foldl max m ∧ (l.foldl max m = m ∨ l.foldl max m ∈ l) := by
  induction l generalizing m with
  | nil => simp
  | cons x l ih =>
    obtain ⟨h1, h2, h3⟩ := ih (max m x)
    simp only [List.foldl_cons, List.mem_cons]
    refine ⟨?_, by omega, ?_⟩
    · rintro y (rfl | hy)
      · omega
      · exact h1 y hy
    · rcases h3 with h3 | h3
      · rw [h3]
        by_cases h : m ≤ x
        · right; left; omega
        · left; omega
      · exact .inr (.inr h3)

/-- Places of a row. -/
theorem filter_row {α β : Type} (row : List α) (f : Nat → α → β) (col : β → Nat) (hcol : ∀ i a, col (f i a) = i) (c k : Nat) :
    (((row.zipIdx k).map fun x => f x.2 x.1).filter fun x => decide (col x = c)) =
      if c < k then [] else (row[c - k]?).toList.map fun a => f c a := by
  induction row generalizing k with
  | nil => simp
  | cons a row ih =>
    simp only [List.zipIdx_cons, List.map_cons, List.filter_cons, hcol, ih (k + 1)]
    by_cases h1 : c < k
    · simp [h1, show c < k + 1 by omega, show k ≠ c by omega]
    · by_cases h2 : k = c
      · subst h2; simp
      · obtain ⟨m, rfl⟩ : ∃ m, c = k + 1 + m := ⟨c - k - 1, by omega⟩
        have e1 : k + 1 + m - k = m + 1 := by omega
        have e2 : k + 1 + m - (k + 1) = m := by omega
        have e3 : ¬ k + 1 + m < k := by omega
        have e4 : ¬ k + 1 + m < k + 1 := by omega
        simp [h2, e1, e2, e3, e4]

theorem filter_grid (rows : List (List (List ParsedSpan))) (r c k : Nat) :
    (((rows.zipIdx k).flatMap fun x => (x.1.zipIdx).map fun y => ({ row := x.2, column := y.2, blocks := [cellFrag y.1] } : FragCell)).filter
      fun x => decide (x.row = r ∧ x.column = c)) =
      if r < k then [] else (((rows[r - k]?).bind fun row => row[c]?).toList.map fun xs => ({ row := r, column := c, blocks := [cellFrag xs] } : FragCell)) := by
  induction rows generalizing k with
  | nil => simp
  | cons row rows ih =>
    simp only [List.zipIdx_cons, List.flatMap_cons, List.filter_append, ih (k + 1)]
    have hrow : ((row.zipIdx.map fun y => ({ row := k, column := y.2, blocks := [cellFrag y.1] } : FragCell)).filter
        fun x => decide (x.row = r ∧ x.column = c)) = if k = r then (row[c]?).toList.map fun xs => ({ row := k, column := c, blocks := [cellFrag xs] } : FragCell) else [] := by
      by_cases h : k = r
      · rw [if_pos h]
        have := filter_row row (fun i xs => ({ row := k, column := i, blocks := [cellFrag xs] } : FragCell)) FragCell.column (fun _ _ => rfl) c 0
        simp only [Nat.not_lt_zero, if_false, Nat.sub_zero] at this
        rw [← this]
        apply List.filter_congr
        intro x hx
        obtain ⟨y, _, rfl⟩ := List.mem_map.mp hx
        simp [h]
      · rw [if_neg h]
        apply List.filter_eq_nil_iff.mpr
        intro x hx
        obtain ⟨y, _, rfl⟩ := List.mem_map.mp hx
        simp [h]
    rw [hrow]
    by_cases h1 : r < k
    · simp [h1, show r < k + 1 by omega, show k ≠ r by omega]
    · by_cases h2 : k = r
      · subst h2; simp
      · obtain ⟨m, rfl⟩ : ∃ m, r = k + 1 + m := ⟨r - k - 1, by omega⟩
        have e1 : k + 1 + m - k = m + 1 := by omega
        have e2 : k + 1 + m - (k + 1) = m := by omega
        have e3 : ¬ k + 1 + m < k := by omega
        have e4 : ¬ k + 1 + m < k + 1 := by omega
        simp [h2, e1, e2, e3, e4]

theorem tableFrag_of (n : Nat) (rows : List (List (List ParsedSpan))) : TableOf n rows (tableFrag n rows) where
  index := rfl
  height := rfl
  width := by
    show (∀ row ∈ rows, row.length ≤ (rows.map List.length).foldl max 0) ∧ (rows = [] ∧ (rows.map List.length).foldl max 0 = 0 ∨ _)
    obtain ⟨h1, _, h3⟩ := foldl_max (rows.map List.length) 0
    refine ⟨fun row hr => h1 _ (List.mem_map.mpr ⟨row, hr, rfl⟩), ?_⟩
    cases rows with
    | nil => exact .inl ⟨rfl, rfl⟩
    | cons row rows =>
      right
      rcases h3 with h3 | h3
      · have := h1 row.length (by simp)
        refine ⟨row, by simp, ?_⟩
        show row.length = ((row :: rows).map List.length).foldl max 0
        omega
      · obtain ⟨row', hr, e⟩ := List.mem_map.mp h3
        exact ⟨row', hr, e⟩
  cells := by
    intro r c
    have := filter_grid rows r c 0
    simp only [Nat.not_lt_zero, if_false, Nat.sub_zero] at this
    have e : (tableFrag n rows).cells = (rows.zipIdx 0).flatMap fun x => (x.1.zipIdx).map fun y => ({ row := x.2, column := y.2, blocks := [cellFrag y.1] } : FragCell) := rfl
    rw [e, this]
    cases (rows[r]?).bind fun row => row[c]? with
    | none => rfl
    | some xs =>
      show [(1, 1, [visibleChars (cellFrag xs).chars])] = _
      have := spanElements_chars xs
      simp only
      rw [← this]
      rfl

theorem tablesOf_map (xs : List (Nat × List (List (List ParsedSpan)))) : TablesOf xs (xs.map fun x => tableFrag x.1 x.2) := by
  induction xs with
  | nil => trivial
  | cons x xs ih => exact ⟨tableFrag_of x.1 x.2, ih⟩

/-! ### HTML -/

/-- A link that is not said to be one is none. -/
def linkFormat (f : CharFormat) : CharFormat := { f with anchorHref := if f.isAnchor = some true then f.anchorHref else none }

theorem fragMarks_eq (f : CharFormat) (t : List Char) : fragMarks f t = htmlMarks (linkFormat f) t := by
  unfold fragMarks htmlMarks linkFormat
  simp only [← escapeHtml_same]
  by_cases h : f.isAnchor = some true
  · simp only [if_pos h]; rfl
  · simp only [if_neg h]

theorem fragMarksOf_eq (f : CharFormat) : fragMarksOf f = htmlMarksOf (some (linkFormat f)) := by
  unfold fragMarksOf htmlMarksOf linkFormat
  by_cases h : f.isAnchor = some true
  · simp [if_pos h]
  · simp [if_neg h]

/-- The text of a paragraph. -/
theorem Inl.fragment {es : List HtmlElem} (h : Clean es) {gs : List (Segment CharFormat)} (ht : ∀ g ∈ gs, ∃ t fm, g = .text t fm) :
    Inl (gs.flatMap fragSegment) es ((gs.flatMap fun
      | .text t fm => styled t (some fm)
      | .image _ => []).map fun c => (c.1, fragMarksOf (c.2.getD {}))) := by
  induction gs with
  | nil => exact Inl.nil es
  | cons g gs ih =>
    obtain ⟨t, fm, rfl⟩ := ht g (by simp)
    simp only [List.flatMap_cons, List.map_append]
    refine Inl.append ?_ (ih fun g hg => ht g (by simp [hg]))
    show Inl (fragMarks fm (escapeHtmlFragment t)) _ _
    rw [fragMarks_eq, ← escapeHtml_same]
    have := Inl.marks h (linkFormat fm) t
    simpa [styled, Function.comp_def, fragMarksOf_eq] using this

theorem Store.FragBlock.IsText.inl {fb : FragBlock} (h : fb.IsText) {es : List HtmlElem} (hes : Clean es) :
    Inl (fragInline fb) es (fb.chars.map fun c => (c.1, fragMarksOf (c.2.getD {}))) := Inl.fragment hes h.elements

theorem digit_safe (c : Char) (h : c.isDigit = true) : c ∉ ['"', ';', '&', '\r'] := by
  intro hm
  simp only [List.mem_cons, List.not_mem_nil, or_false] at hm
  rcases hm with rfl | rfl | rfl | rfl <;> revert h <;> decide

theorem nat_safe (n : Nat) : StyleSafe (toString n).toList := by
  intro c hc
  rw [Nat.toString_eq_repr, Nat.toList_repr] at hc
  exact digit_safe c (Nat.isDigit_of_mem_toDigits (by omega) (by omega) hc)

theorem int_safe (n : Int) : StyleSafe (toString n).toList := by
  cases n with
  | ofNat n => exact nat_safe n
  | negSucc n =>
    intro c hc
    have : (toString (Int.negSucc n)).toList = '-' :: (toString (n + 1)).toList := by
      show ("-" ++ Nat.repr (n + 1)).toList = _
      rw [String.toList_append, Nat.toString_eq_repr]; rfl
    rw [this] at hc
    rcases List.mem_cons.mp hc with rfl | hc
    · decide
    · exact nat_safe _ c hc

theorem safe_append {x y : List Char} (hx : StyleSafe x) (hy : StyleSafe y) : StyleSafe (x ++ y) := by
  intro c hc
  rcases List.mem_append.mp hc with h | h
  · exact hx c h
  · exact hy c h

theorem fragStyleOf_ok (b : Block) : ∀ e ∈ fragStyleOf b, DeclOk e := by
  have lit : ∀ (k : String) (v : List Char), (∀ c ∈ k.toList, c ∉ [';', ':', ' ', '"', '&', '\r']) →
      k.toList ≠ [] → StyleSafe v → DeclOk (k.toList, v) := fun k v a b c => ⟨a, b, c⟩
  have px : ∀ n, StyleSafe (pixels n) := fun n => safe_append (int_safe n) (by unfold StyleSafe; decide)
  intro e he
  unfold fragStyleOf at he
  simp only [List.mem_append, List.mem_map] at he
  rcases he with (((((he | he) | he) | ⟨n, _, rfl⟩) | ⟨n, _, rfl⟩) | ⟨n, _, rfl⟩) | ⟨n, _, rfl⟩
  · cases ha : b.fmtAlignment with
    | none => rw [ha] at he; simp at he
    | some a =>
      rw [ha] at he
      cases a <;> (simp only [List.mem_singleton] at he; subst he; exact lit _ _ (by decide) (by decide) (by unfold StyleSafe; decide))
  · split at he
    · simp only [List.mem_singleton] at he; subst he
      exact lit _ _ (by decide) (by decide) (safe_append (int_safe _) (by unfold StyleSafe; decide))
    · simp at he
  · split at he
    · simp only [List.mem_singleton] at he; subst he
      exact lit _ _ (by decide) (by decide) (px _)
    · simp at he
  all_goals exact lit _ _ (by decide) (by decide) (px n)

theorem fragStyles_eq (b : Block) : fragStyles b = (fragStyleOf b).map declText := by
  have e : ∀ k v : String, declText (k.toList, v.toList) = k.toList ++ ": ".toList ++ v.toList := fun k v => rfl
  have e2 : ∀ (k : String) (v : List Char), declText (k.toList, v) = k.toList ++ ": ".toList ++ v := fun k v => rfl
  unfold fragStyles fragStyleOf
  simp only [List.map_append]
  congr 1
  congr 1
  congr 1
  congr 1
  congr 1
  congr 1
  · cases b.fmtAlignment with
    | none => rfl
    | some a => cases a <;> (simp only [List.map_cons, List.map_nil, e]; congr 1)
  · cases b.fmtIndent with
    | none => simp
    | some n =>
      by_cases h : 0 < n
      · simp [h, declText, showInt]
      · simp [h]
  · cases b.fmtTextIndent with
    | none => simp
    | some n =>
      by_cases h : n = 0
      · simp [h]
      · simp [h, declText, showInt, pixels]
  · cases b.fmtTopMargin <;> simp [declText, showInt, pixels]
  · cases b.fmtBottomMargin <;> simp [declText, showInt, pixels]
  · cases b.fmtLeftMargin <;> simp [declText, showInt, pixels]
  · cases b.fmtRightMargin <;> simp [declText, showInt, pixels]

theorem joinWith_ne (d : List Char × List Char) (ds : List (List Char × List Char)) :
    joinWith "; ".toList ((d :: ds).map declText) ≠ [] := by
  simp [joinWith, declText]

theorem Par.fragPara {fb : FragBlock} (h : fb.IsText) (hl : fb.list = none) {outer : List HtmlElem} (ho : Clean outer) :
    Par (fragPara fb) outer [fragPageOf fb] := by
  have h2 : ∀ es, Clean es → Inl (fragInline fb) es (fb.chars.map fun c => (c.1, fragMarksOf (c.2.getD {}))) := fun es hes => h.inl hes
  unfold Store.fragPara fragPageOf
  rw [hl]
  cases fb.format.fmtHeadingLevel with
  | none =>
    simp only
    have := Par.body (tag := ['p']) (outer := outer) (k := .para) (ds := fragStyleOf fb.format) (by decide) (fun r => rfl) (fragStyleOf_ok _) ho h2
    rw [fragStyles_eq]
    cases hd : fragStyleOf fb.format with
    | nil => rw [hd] at this; simpa [joinWith] using this
    | cons d ds =>
      rw [hd] at this
      rw [if_neg (joinWith_ne d ds)]
      rw [if_neg (by simp)] at this
      simpa using this
  | some l =>
    have hcase : max 1 (min 6 l) = 1 ∨ max 1 (min 6 l) = 2 ∨ max 1 (min 6 l) = 3 ∨ max 1 (min 6 l) = 4 ∨
        max 1 (min 6 l) = 5 ∨ max 1 (min 6 l) = 6 := by omega
    have key : ∀ (tag : List Char) (k : HtmlKind), tag ∈ bodyTags → (∀ r, paraKind ⟨tag, r⟩ outer = some k) →
        Par (htmlElem tag (fragInline fb)) outer [⟨k, [], fb.chars.map fun c => (c.1, fragMarksOf (c.2.getD {}))⟩] := by
      intro tag k ht hk
      have := Par.body (tag := tag) (outer := outer) (k := k) (ds := []) ht hk (by simp) ho h2
      simpa [htmlElem] using this
    simp only
    rcases hcase with e | e | e | e | e | e <;> rw [e]
    · exact key "h1".toList _ (by decide) (fun r => rfl)
    · exact key "h2".toList _ (by decide) (fun r => rfl)
    · exact key "h3".toList _ (by decide) (fun r => rfl)
    · exact key "h4".toList _ (by decide) (fun r => rfl)
    · exact key "h5".toList _ (by decide) (fun r => rfl)
    · exact key "h6".toList _ (by decide) (fun r => rfl)

theorem Par.fragItem {fb : FragBlock} (h : fb.IsText) {l : FragList} (hl : fb.list = some l) {outer : List HtmlElem} (ho : Clean outer) :
    Par (htmlElem "li".toList (fragInline fb)) (⟨(if numbered l.style then "ol" else "ul").toList, []⟩ :: outer) [fragPageOf fb] := by
  generalize hn : numbered l.style = n
  have hcl : Clean (elemOf "li".toList :: ⟨(if n then "ol" else "ul").toList, []⟩ :: outer) := by
    intro e he
    simp only [List.mem_cons] at he
    rcases he with rfl | rfl | he
    · decide
    · cases n <;> decide
    · exact ho e he
  have hk : paraKind (elemOf "li".toList) (⟨(if n then "ol" else "ul").toList, []⟩ :: outer) = some (.item n) := by
    cases n <;> rfl
  have := Par.elem (tag := "li".toList) (Tok.tag "li".toList (by decide)) (Tok.tag "/li".toList (by decide)) rfl
    (by decide) (by decide) hk (h.inl hcl)
  have e : (elemOf "li".toList).styles = [] := by decide
  rw [e] at this
  unfold fragPageOf
  rw [hl]
  simpa [htmlElem, hn] using this

theorem Par.fragItems (n : Bool) {outer : List HtmlElem} (ho : Clean outer) (fbs : List FragBlock) (h : ∀ fb ∈ fbs, fb.IsText) :
    ∃ now, fbs = now ++ (Store.fragItems n fbs).2 ∧
      Par (Store.fragItems n fbs).1.flatten (⟨(if n then "ol" else "ul").toList, []⟩ :: outer) (now.map fragPageOf) ∧
      (∀ fb l, fbs.head? = some fb → fb.list = some l → numbered l.style = n → now ≠ []) := by
  induction fbs with
  | nil => exact ⟨[], rfl, Par.nil _, by simp⟩
  | cons fb fbs ih =>
    obtain ⟨now, e1, e2, _⟩ := ih fun x hx => h x (by simp [hx])
    unfold Store.fragItems
    cases hl : fb.list with
    | none =>
      refine ⟨[], rfl, Par.nil _, ?_⟩
      intro x l hx hxl
      simp only [List.head?_cons, Option.some.injEq] at hx
      rw [← hx, hl] at hxl; cases hxl
    | some l =>
      simp only
      by_cases hn : isOrdered l.style = n
      · rw [if_pos hn]
        refine ⟨fb :: now, by rw [List.cons_append, ← e1], ?_, by simp⟩
        rw [List.flatten_cons, List.map_cons]
        have := Par.fragItem (h fb (by simp)) hl ho
        rw [← numbered_eq, hn] at this
        exact this.append e2
      · rw [if_neg hn]
        refine ⟨[], rfl, Par.nil _, ?_⟩
        intro x l' hx hxl hnum
        simp only [List.head?_cons, Option.some.injEq] at hx
        rw [← hx, hl] at hxl
        cases hxl
        exact absurd (by rw [numbered_eq]; exact hnum) hn

theorem Par.fragBody {outer : List HtmlElem} (ho : Clean outer) (fuel i : Nat) (fbs : List FragBlock) (hf : fbs.length ≤ fuel)
    (h : ∀ fb ∈ fbs, fb.IsText) : Par (fragBody fuel i fbs []) outer (fbs.map fragPageOf) := by
  induction fuel generalizing i fbs with
  | zero =>
    have : fbs = [] := List.length_eq_zero_iff.mp (by omega)
    subst this
    exact Par.nil _
  | succ fuel ih =>
    cases fbs with
    | nil => exact Par.nil _
    | cons fb fbs =>
      simp only [List.length_cons] at hf
      unfold Store.fragBody
      simp only [List.takeWhile_nil, List.dropWhile_nil, List.flatMap_nil, List.nil_append]
      cases hl : fb.list with
      | none => exact (Par.fragPara (h fb (by simp)) hl ho).append (ih _ _ (by omega) fun x hx => h x (by simp [hx]))
      | some l =>
        simp only
        obtain ⟨now, e1, e2, e3⟩ := Par.fragItems (isOrdered l.style) ho (fb :: fbs) h
        have hne := e3 fb l rfl hl (numbered_eq _).symm
        have hlen := congrArg List.length e1
        simp only [List.length_cons, List.length_append] at hlen
        have hpos : 0 < now.length := List.length_pos_iff.mpr hne
        have htag : (if isOrdered l.style then "ol".toList else "ul".toList) =
            (if isOrdered l.style then "ol" else "ul").toList := by split <;> rfl
        rw [htag]
        have := (Par.outer (tag := (if isOrdered l.style then "ol" else "ul").toList) (by
          cases isOrdered l.style <;> decide) e2).append
          (ih (i + ((fb :: fbs).length - (Store.fragItems (isOrdered l.style) (fb :: fbs)).2.length)) (Store.fragItems (isOrdered l.style) (fb :: fbs)).2 (by omega)
            fun x hx => h x (by rw [e1]; simp [hx]))
        rw [← List.map_append, ← e1] at this
        exact this

/-- The page around paragraphs. -/
theorem readHtml_page {x : List Char} {hps : List HtmlPara} (h : Par x [⟨"body".toList, []⟩, ⟨"html".toList, []⟩] hps) :
    readHtml ("<html><head><meta charset=\"utf-8\"></head><body>".toList ++ x ++ "</body></html>".toList) = some hps := by
  obtain ⟨ts, t2, t3⟩ := h
  have k1 : Tok ('<' :: "html".toList ++ ['>']) [.tag "html".toList] := Tok.tag _ (by decide)
  have k2 : Tok ('<' :: "head".toList ++ ['>']) [.tag "head".toList] := Tok.tag _ (by decide)
  have k3 := Tok.tagAttr "meta charset=".toList "utf-8".toList (by decide) (by decide)
  have k4 : Tok ('<' :: "/head".toList ++ ['>']) [.tag "/head".toList] := Tok.tag _ (by decide)
  have k5 : Tok ('<' :: "body".toList ++ ['>']) [.tag "body".toList] := Tok.tag _ (by decide)
  have k6 : Tok ('<' :: "/body".toList ++ ['>']) [.tag "/body".toList] := Tok.tag _ (by decide)
  have k7 : Tok ('<' :: "/html".toList ++ ['>']) [.tag "/html".toList] := Tok.tag _ (by decide)
  have hall := ((((k1.append k2).append (k3.append k4)).append k5).append t2).append (k6.append k7)
  have hx : "<html><head><meta charset=\"utf-8\"></head><body>".toList ++ x ++ "</body></html>".toList =
      '<' :: "html".toList ++ ['>'] ++ ('<' :: "head".toList ++ ['>']) ++
      ('<' :: "meta charset=".toList ++ '"' :: "utf-8".toList ++ ['"', '>'] ++ ('<' :: "/head".toList ++ ['>'])) ++
      ('<' :: "body".toList ++ ['>']) ++ x ++ ('<' :: "/body".toList ++ ['>'] ++ ('<' :: "/html".toList ++ ['>'])) := by
    simp
  unfold readHtml
  rw [hx, hall.read, Option.bind_some]
  have r1 : Runs ([.tag "html".toList] ++ [.tag "head".toList] ++
      ([.tag ("meta charset=".toList ++ '"' :: "utf-8".toList ++ ['"'])] ++ [.tag "/head".toList]) ++
      [.tag "body".toList]) ⟨[], false, []⟩ ⟨[⟨"body".toList, []⟩, ⟨"html".toList, []⟩], false, []⟩ := by
    unfold Runs; rfl
  have r2 := r1.append (t3 [])
  have r3 : Runs ([.tag "/body".toList] ++ [.tag "/html".toList])
      ⟨[⟨"body".toList, []⟩, ⟨"html".toList, []⟩], false, hps.reverse ++ []⟩
      ⟨[], false, hps.reverse ++ []⟩ := by
    unfold Runs; rfl
  have r4 := r2.append r3
  unfold Runs at r4
  rw [r4]
  simp

/-- The page around the text of one paragraph. -/
theorem readInlineHtml_page {x : List Char} {cs : List (Char × HtmlMarks)}
    (h : Inl x [⟨"p".toList, []⟩, ⟨"body".toList, []⟩, ⟨"html".toList, []⟩] cs) :
    readInlineHtml ("<html><head><meta charset=\"utf-8\"></head><body>".toList ++ x ++ "</body></html>".toList) =
      some [⟨.para, [], cs⟩] := by
  obtain ⟨ts, t2, t3⟩ := h
  have k1 : Tok ('<' :: "html".toList ++ ['>']) [.tag "html".toList] := Tok.tag _ (by decide)
  have k2 : Tok ('<' :: "head".toList ++ ['>']) [.tag "head".toList] := Tok.tag _ (by decide)
  have k3 := Tok.tagAttr "meta charset=".toList "utf-8".toList (by decide) (by decide)
  have k4 : Tok ('<' :: "/head".toList ++ ['>']) [.tag "/head".toList] := Tok.tag _ (by decide)
  have k5 : Tok ('<' :: "body".toList ++ ['>']) [.tag "body".toList] := Tok.tag _ (by decide)
  have k6 : Tok ('<' :: "/body".toList ++ ['>']) [.tag "/body".toList] := Tok.tag _ (by decide)
  have k7 : Tok ('<' :: "/html".toList ++ ['>']) [.tag "/html".toList] := Tok.tag _ (by decide)
  have hall := ((((k1.append k2).append (k3.append k4)).append k5).append t2).append (k6.append k7)
  have hx : "<html><head><meta charset=\"utf-8\"></head><body>".toList ++ x ++ "</body></html>".toList =
      '<' :: "html".toList ++ ['>'] ++ ('<' :: "head".toList ++ ['>']) ++
      ('<' :: "meta charset=".toList ++ '"' :: "utf-8".toList ++ ['"', '>'] ++ ('<' :: "/head".toList ++ ['>'])) ++
      ('<' :: "body".toList ++ ['>']) ++ x ++ ('<' :: "/body".toList ++ ['>'] ++ ('<' :: "/html".toList ++ ['>'])) := by
    simp
  unfold readInlineHtml
  rw [hx, hall.read, Option.bind_some]
  have e1 : behindFirst (.tag "body".toList) [.tag "p".toList] ([.tag "html".toList] ++ [.tag "head".toList] ++
      ([.tag ("meta charset=".toList ++ '"' :: "utf-8".toList ++ ['"'])] ++ [.tag "/head".toList]) ++
      [.tag "body".toList] ++ ts ++ ([.tag "/body".toList] ++ [.tag "/html".toList])) =
      [.tag "html".toList, .tag "head".toList, .tag ("meta charset=".toList ++ '"' :: "utf-8".toList ++ ['"']), .tag "/head".toList,
      .tag "body".toList, .tag "p".toList] ++ ts ++ [.tag "/body".toList, .tag "/html".toList] := by
    simp [behindFirst]
  have e2 : ∀ us : List HtmlToken, (behindFirst (.tag "/body".toList) [.tag "/p".toList]
      (us ++ [HtmlToken.tag "/body".toList, HtmlToken.tag "/html".toList]).reverse).reverse =
      us ++ [.tag "/p".toList, .tag "/body".toList, .tag "/html".toList] := by
    intro us
    simp [behindFirst]
  simp only [e1, e2]
  have r1 : Runs [.tag "html".toList, .tag "head".toList, .tag ("meta charset=".toList ++ '"' :: "utf-8".toList ++ ['"']),
      .tag "/head".toList, .tag "body".toList, .tag "p".toList] ⟨[], false, []⟩
      ⟨[⟨"p".toList, []⟩, ⟨"body".toList, []⟩, ⟨"html".toList, []⟩], true, [⟨.para, [], []⟩]⟩ := by
    unfold Runs; rfl
  have r2 := r1.append (t3 ⟨.para, [], []⟩ [])
  have r3 : Runs [.tag "/p".toList, .tag "/body".toList, .tag "/html".toList]
      ⟨[⟨"p".toList, []⟩, ⟨"body".toList, []⟩, ⟨"html".toList, []⟩], true, [⟨.para, [], [] ++ cs⟩]⟩
      ⟨[], false, [⟨.para, [], [] ++ cs⟩]⟩ := by
    unfold Runs; rfl
  have r4 := r2.append r3
  unfold Runs at r4
  rw [r4]
  simp

end Verif

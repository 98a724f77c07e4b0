import Verif.Spec.Html
import Verif.Model.ExportHtml
import Verif.Lemmas.Inspect
import Verif.Lemmas.Flat
import Verif.Props.Escape
/- How the reader of HTML reads what the exporter writes. -/
namespace Verif

/-! ### Tokens -/

/-- `x` reads as the tokens `ts`, whatever comes after. -/
def Tok (x : List Char) (ts : List HtmlToken) : Prop :=
  ∀ rest, htmlTokens .text (x ++ rest) = (htmlTokens .text rest).map fun us => ts ++ us

theorem Tok.nil : Tok [] [] := by intro rest; simp

theorem Tok.append {x y : List Char} {ts us : List HtmlToken} (h : Tok x ts) (k : Tok y us) :
    Tok (x ++ y) (ts ++ us) := by
  intro rest
  rw [List.append_assoc, h, k, Option.map_map]
  congr 1
  funext v; simp

theorem Tok.read {x : List Char} {ts : List HtmlToken} (h : Tok x ts) : htmlTokens .text x = some ts := by
  have := h []
  simpa [htmlTokens] using this

theorem Tok.char {c : Char} : Tok (htmlCode c) [.char c] := by
  intro rest
  unfold htmlCode
  split
  · next h => subst h; simp [htmlTokens, htmlRefs, List.lookup]
  split
  · next h => subst h; simp [htmlTokens, htmlRefs, List.lookup]
  split
  · next h => subst h; simp [htmlTokens, htmlRefs, List.lookup]
  split
  · next h => subst h; simp [htmlTokens, htmlRefs, List.lookup]
  split
  · next h => subst h; simp [htmlTokens, htmlRefs, List.lookup]
  split
  · next h => subst h; simp [htmlTokens, htmlRefs, List.lookup]
  · rename_i h1 h2 _ _ _ h6
    simp [htmlTokens, h1, h2, h6]

theorem Tok.escape (t : List Char) : Tok (escapeHtmlExport t) (t.map .char) := by
  rw [escapeHtml_same]
  unfold escapeHtmlFragment
  induction t with
  | nil => exact Tok.nil
  | cons c t ih =>
    have : Tok (htmlCode c ++ t.flatMap htmlCode) ([.char c] ++ t.map .char) := Tok.char.append ih
    simpa using this

theorem tag_plain (body : List Char) (h : ∀ c ∈ body, c ≠ '"' ∧ c ≠ '>') (seen rest : List Char) :
    htmlTokens (.tag seen false) (body ++ rest) = htmlTokens (.tag (seen ++ body) false) rest := by
  induction body generalizing seen with
  | nil => simp
  | cons c body ih =>
    have hc := h c (by simp)
    simp only [List.cons_append, htmlTokens, if_neg hc.1, hc.2, false_and, if_false]
    rw [ih fun c' hc' => h c' (by simp [hc'])]
    simp

theorem tag_quoted (v : List Char) (h : '"' ∉ v) (seen rest : List Char) :
    htmlTokens (.tag seen true) (v ++ rest) = htmlTokens (.tag (seen ++ v) true) rest := by
  induction v generalizing seen with
  | nil => simp
  | cons c v ih =>
    have hc : ¬ c = '"' := fun e => h (by simp [e])
    simp only [List.cons_append, htmlTokens, if_neg hc]
    rw [if_neg (by simp), ih fun h' => h (by simp [h'])]
    simp

/-- A tag without attributes. -/
theorem Tok.tag (body : List Char) (h : ∀ c ∈ body, c ≠ '"' ∧ c ≠ '>') :
    Tok ('<' :: body ++ ['>']) [.tag body] := by
  intro rest
  simp only [List.cons_append, List.append_assoc, htmlTokens, if_true]
  rw [tag_plain body h]
  simp [htmlTokens]

/-- A tag with an attribute. -/
theorem Tok.tagAttr (pre v : List Char) (h : ∀ c ∈ pre, c ≠ '"' ∧ c ≠ '>') (hv : '"' ∉ v) :
    Tok ('<' :: pre ++ '"' :: v ++ ['"', '>']) [.tag (pre ++ '"' :: v ++ ['"'])] := by
  intro rest
  simp only [List.cons_append, List.append_assoc, htmlTokens, if_true]
  rw [tag_plain pre h]
  simp only [htmlTokens, if_true, Bool.not_false]
  rw [tag_quoted v hv]
  simp [htmlTokens]

/-! ### Attribute values -/

theorem attrText_escape (t rest : List Char) :
    attrText none (escapeHtmlExport t ++ rest) = (attrText none rest).map fun u => t ++ u := by
  rw [escapeHtml_same]
  unfold escapeHtmlFragment
  induction t with
  | nil => simp
  | cons c t ih =>
    rw [List.flatMap_cons, List.append_assoc]
    have : ∀ r, attrText none (htmlCode c ++ r) = (attrText none r).map fun u => c :: u := by
      intro r
      unfold htmlCode
      split
      · next h => subst h; simp [attrText, htmlRefs, List.lookup]
      split
      · next h => subst h; simp [attrText, htmlRefs, List.lookup]
      split
      · next h => subst h; simp [attrText, htmlRefs, List.lookup]
      split
      · next h => subst h; simp [attrText, htmlRefs, List.lookup]
      split
      · next h => subst h; simp [attrText, htmlRefs, List.lookup]
      split
      · next h => subst h; simp [attrText, htmlRefs, List.lookup]
      · rename_i h1 h2 _ _ _ h6
        simp [attrText, h1, h6]
    rw [this, ih, Option.map_map]
    rfl

theorem escape_no_quote (t : List Char) : '"' ∉ escapeHtmlExport t := by
  rw [escapeHtml_same]
  unfold escapeHtmlFragment
  rw [List.mem_flatMap]
  rintro ⟨c, _, hc⟩
  unfold htmlCode at hc
  repeat' split at hc
  all_goals first | (simp at hc; done) | (simp only [List.mem_singleton] at hc; exact absurd hc.symm (by assumption))

theorem attrText_plain (v : List Char) (h : ∀ c ∈ v, c ≠ '&' ∧ c ≠ '\r') : attrText none v = some v := by
  induction v with
  | nil => rfl
  | cons c v ih =>
    have hc := h c (by simp)
    simp only [attrText, if_neg hc.1, if_neg hc.2]
    rw [ih fun x hx => h x (by simp [hx])]
    rfl

/-! ### Inside a paragraph -/

/-- The tokens `ts` lead the reader from one state to another. -/
def Runs (ts : List HtmlToken) (a b : HtmlReader) : Prop := ts.foldlM HtmlReader.step a = some b

theorem Runs.nil (a : HtmlReader) : Runs [] a a := rfl

theorem Runs.append {ts us : List HtmlToken} {a b c : HtmlReader} (h : Runs ts a b) (k : Runs us b c) :
    Runs (ts ++ us) a c := by
  unfold Runs at *
  rw [List.foldlM_append, h]
  exact k

theorem Runs.one {t : HtmlToken} {a b : HtmlReader} (h : a.step t = some b) : Runs [t] a b := by
  simp [Runs, h]

/-- `x`, read inside a paragraph with the elements `es` open, adds the characters `cs`. -/
def Inl (x : List Char) (es : List HtmlElem) (cs : List (Char × HtmlMarks)) : Prop :=
  ∃ ts, Tok x ts ∧ ∀ p ps, Runs ts ⟨es, true, p :: ps⟩ ⟨es, true, { p with chars := p.chars ++ cs } :: ps⟩

theorem Inl.nil (es : List HtmlElem) : Inl [] es [] :=
  ⟨[], Tok.nil, fun p ps => by simp [Runs]⟩

theorem Inl.append {x y : List Char} {es : List HtmlElem} {cs ds : List (Char × HtmlMarks)}
    (h : Inl x es cs) (k : Inl y es ds) : Inl (x ++ y) es (cs ++ ds) := by
  obtain ⟨ts, h1, h2⟩ := h
  obtain ⟨us, k1, k2⟩ := k
  refine ⟨ts ++ us, h1.append k1, fun p ps => ?_⟩
  have := (h2 p ps).append (k2 { p with chars := p.chars ++ cs } ps)
  simpa using this

theorem Inl.escape (t : List Char) (es : List HtmlElem) :
    Inl (escapeHtmlExport t) es (t.map fun c => (c, marksOf es)) := by
  refine ⟨_, Tok.escape t, fun p ps => ?_⟩
  induction t generalizing p with
  | nil => simp [Runs]
  | cons c t ih =>
    have h1 : Runs [.char c] ⟨es, true, p :: ps⟩
        ⟨es, true, { p with chars := p.chars ++ [(c, marksOf es)] } :: ps⟩ := Runs.one rfl
    have := h1.append (ih { p with chars := p.chars ++ [(c, marksOf es)] })
    simpa using this

/-- An inner element that is not the code of a code block. -/
structure Mark (e : HtmlElem) (es : List HtmlElem) : Prop where
  inner : e.name ∈ htmlInner
  notPre : ¬ (e.name = "code".toList ∧ (es.head?.map HtmlElem.name) = some "pre".toList)

theorem inner_ne {n : List Char} (h : n ∈ htmlInner) : n ≠ "meta".toList ∧ n.head? ≠ some '/' ∧
    ∀ r es, paraKind ⟨n, r⟩ es = none := by
  simp only [htmlInner, List.map_cons, List.map_nil, List.mem_cons, List.not_mem_nil, or_false] at h
  rcases h with rfl | rfl | rfl | rfl | rfl | rfl <;> exact ⟨by decide, by decide, fun r es => rfl⟩

theorem Inl.elem {x body : List Char} {es : List HtmlElem} {cs : List (Char × HtmlMarks)} {tag : List Char}
    (hb : Tok ('<' :: body ++ ['>']) [.tag body]) (hn : (elemOf body).name = tag)
    (hm : Mark (elemOf body) es) (h : Inl x (elemOf body :: es) cs) :
    Inl ('<' :: body ++ ['>'] ++ x ++ ('<' :: '/' :: tag ++ ['>'])) es cs := by
  obtain ⟨ts, h1, h2⟩ := h
  have hi := inner_ne (hn ▸ hm.inner)
  have hclose : Tok ('<' :: ('/' :: tag) ++ ['>']) [.tag ('/' :: tag)] := by
    apply Tok.tag
    have hmem := hn ▸ hm.inner
    simp only [htmlInner, List.map_cons, List.map_nil, List.mem_cons, List.not_mem_nil, or_false] at hmem
    rcases hmem with rfl | rfl | rfl | rfl | rfl | rfl <;> decide
  refine ⟨_, (hb.append h1).append hclose, fun p ps => ?_⟩
  have hpk : ∀ es', paraKind (elemOf body) es' = none := by
    intro es'
    have := hi.2.2 (elemOf body).rest es'
    rw [← hn] at this; exact this
  have e1 : Runs [.tag body] ⟨es, true, p :: ps⟩ ⟨elemOf body :: es, true, p :: ps⟩ := by
    apply Runs.one
    have hslash : body.head? ≠ some '/' := by
      intro e
      cases body with
      | nil => cases e
      | cons c n =>
        simp only [List.head?_cons, Option.some.injEq] at e
        subst e
        have : (elemOf ('/' :: n)).name.head? = some '/' := by simp [elemOf, List.takeWhile]
        rw [hn] at this
        exact hi.2.1 this
    simp only [HtmlReader.step, if_neg hslash, HtmlReader.openElem]
    rw [if_neg (by rw [hn]; exact hi.1), hpk]
    simp only
    rw [if_neg hm.notPre, if_pos hm.inner]
  have e2 : Runs [.tag ('/' :: tag)] ⟨elemOf body :: es, true, { p with chars := p.chars ++ cs } :: ps⟩
      ⟨es, true, { p with chars := p.chars ++ cs } :: ps⟩ := by
    apply Runs.one
    simp [HtmlReader.step, HtmlReader.closeElem, hn, hpk]
  exact (e1.append (h2 p ps)).append e2

theorem Inl.simple {x : List Char} {es : List HtmlElem} {cs : List (Char × HtmlMarks)} {tag : List Char}
    (ht : tag ∈ htmlInner) (hp : (es.head?.map HtmlElem.name) ≠ some "pre".toList)
    (h : Inl x (⟨tag, []⟩ :: es) cs) : Inl (Store.htmlElem tag x) es cs := by
  have hmem := ht
  simp only [htmlInner, List.map_cons, List.map_nil, List.mem_cons, List.not_mem_nil, or_false] at hmem
  have he : elemOf tag = ⟨tag, []⟩ := by
    rcases hmem with rfl | rfl | rfl | rfl | rfl | rfl <;> rfl
  have htok : Tok ('<' :: tag ++ ['>']) [.tag tag] := by
    apply Tok.tag
    rcases hmem with rfl | rfl | rfl | rfl | rfl | rfl <;> decide
  have := Inl.elem (x := x) (cs := cs) (es := es) (tag := tag) htok (by rw [he])
    ⟨by rw [he]; exact ht, fun hh => hp hh.2⟩ (by rw [he]; exact h)
  simpa [Store.htmlElem] using this

/-- The element a link opens. -/
def linkElem (href : List Char) : HtmlElem := ⟨['a'], " href=\"".toList ++ escapeHtmlExport href ++ ['"']⟩

theorem linkElem_attr (href : List Char) : (linkElem href).attr "href".toList = some href := by
  have h1 : (' ' :: "href".toList ++ "=\"".toList) = " href=\"".toList := by decide
  have h2 : (linkElem href).rest = " href=\"".toList ++ (escapeHtmlExport href ++ ['"']) := by
    simp [linkElem]
  unfold HtmlElem.attr
  simp only [h1, h2]
  rw [if_pos (by rw [List.isPrefixOf_iff_prefix]; exact List.prefix_append _ _), List.drop_left,
    List.dropLast_concat]
  have := attrText_escape href []
  simpa [attrText] using this

theorem Inl.link {x : List Char} {es : List HtmlElem} {cs : List (Char × HtmlMarks)} (href : List Char)
    (h : Inl x (linkElem href :: es) cs) :
    Inl ("<a href=\"".toList ++ escapeHtmlExport href ++ "\">".toList ++ x ++ "</a>".toList) es cs := by
  have he : elemOf ("a href=\"".toList ++ escapeHtmlExport href ++ ['"']) = linkElem href := by
    simp [elemOf, linkElem, List.takeWhile, List.dropWhile]
  have htok : Tok ('<' :: ("a href=\"".toList ++ escapeHtmlExport href ++ ['"']) ++ ['>'])
      [.tag ("a href=\"".toList ++ escapeHtmlExport href ++ ['"'])] := by
    have := Tok.tagAttr "a href=".toList (escapeHtmlExport href) (by decide) (escape_no_quote href)
    simpa using this
  have := Inl.elem (x := x) (cs := cs) (es := es) (tag := ['a']) htok (by rw [he]; rfl)
    ⟨by rw [he]; show ['a'] ∈ htmlInner; decide, fun hh => by
      rw [he] at hh
      have : ['a'] = "code".toList := hh.1
      exact absurd this (by decide)⟩ (by rw [he]; exact h)
  simpa using this

/-- No mark and no code block is open. -/
def Clean (es : List HtmlElem) : Prop := ∀ e ∈ es, e.name ∉ "pre".toList :: htmlInner

theorem Clean.isOpen {es : List HtmlElem} (h : Clean es) {n : String} (hn : n.toList ∈ "pre".toList :: htmlInner) :
    isOpen n es = false := by
  unfold Verif.isOpen
  rw [List.any_eq_false]
  intro e he
  have := h e he
  simp only [decide_eq_true_eq]
  intro e'; rw [e'] at this; exact this hn

theorem Clean.find {es : List HtmlElem} (h : Clean es) : es.find? (fun e => e.name = "a".toList) = none := by
  rw [List.find?_eq_none]
  intro e he
  have := h e he
  simp only [decide_eq_true_eq]
  intro e'; rw [e'] at this; exact this (by decide)

theorem Clean.head {es : List HtmlElem} (h : Clean es) : (es.head?.map HtmlElem.name) ≠ some "pre".toList := by
  cases es with
  | nil => simp
  | cons e es =>
    simp only [List.head?_cons, Option.map_some, ne_eq, Option.some.injEq]
    intro e'
    exact h e (by simp) (by rw [e']; simp)

theorem inl_if {c : Prop} [Decidable c] {x : List Char} {es : List HtmlElem} {cs : List (Char × HtmlMarks)}
    {tag : List Char} (ht : tag ∈ htmlInner) (hp : (es.head?.map HtmlElem.name) ≠ some "pre".toList)
    (h : Inl x (if c then ⟨tag, []⟩ :: es else es) cs) : Inl (if c then Store.htmlElem tag x else x) es cs := by
  by_cases hc : c
  · rw [if_pos hc] at h ⊢; exact h.simple ht hp
  · rw [if_neg hc] at h ⊢; exact h

/-- The elements opened for a format. -/
def opened (f : CharFormat) (es : List HtmlElem) : List HtmlElem :=
  let es := match f.anchorHref with | some href => linkElem href.toList :: es | none => es
  let es := if f.fontStrikeout = some true then ⟨"s".toList, []⟩ :: es else es
  let es := if f.fontUnderline = some true then ⟨"u".toList, []⟩ :: es else es
  let es := if f.fontItalic = some true then ⟨"em".toList, []⟩ :: es else es
  let es := if f.fontBold = some true then ⟨"strong".toList, []⟩ :: es else es
  if f.fontFamily = some "monospace" then ⟨"code".toList, []⟩ :: es else es

theorem marksOf_opened {f : CharFormat} {es : List HtmlElem} (h : Clean es) :
    marksOf (opened f es) = htmlMarksOf (some f) := by
  have h1 := h.isOpen (n := "pre") (by decide)
  have h2 := h.isOpen (n := "code") (by decide)
  have h3 := h.isOpen (n := "strong") (by decide)
  have h4 := h.isOpen (n := "em") (by decide)
  have h5 := h.isOpen (n := "u") (by decide)
  have h6 := h.isOpen (n := "s") (by decide)
  have h7 := h.find
  have hla : ∀ h, (linkElem h).name = ['a'] := fun _ => rfl
  have ho : ∀ (n : String) (e : HtmlElem) es, isOpen n (e :: es) = (decide (e.name = n.toList) || isOpen n es) :=
    fun n e es => by simp [isOpen]
  have hlink : (opened f es).find? (fun e => e.name = "a".toList) =
      f.anchorHref.map fun h => linkElem h.toList := by
    unfold opened
    simp only
    repeat' split
    all_goals simp_all [List.find?]
  have hop : ∀ n : String, isOpen n (opened f es) =
      ((decide (f.fontFamily = some "monospace") && decide (n = "code")) ||
       (decide (f.fontBold = some true) && decide (n = "strong")) ||
       (decide (f.fontItalic = some true) && decide (n = "em")) ||
       (decide (f.fontUnderline = some true) && decide (n = "u")) ||
       (decide (f.fontStrikeout = some true) && decide (n = "s")) ||
       (f.anchorHref.isSome && decide (n = "a")) || isOpen n es) := by
    intro n
    have hs : ∀ (a b : String), decide (a.toList = b.toList) = decide (b = a) := by
      intro a b
      rw [decide_eq_decide]
      constructor
      · intro h; exact (String.toList_injective h).symm
      · rintro rfl; rfl
    have hs' : ∀ b : String, decide (['a'] = b.toList) = decide (b = "a") := fun b => hs "a" b
    unfold opened
    cases f.anchorHref <;> by_cases c1 : f.fontStrikeout = some true <;>
      by_cases c2 : f.fontUnderline = some true <;> by_cases c3 : f.fontItalic = some true <;>
      by_cases c4 : f.fontBold = some true <;> by_cases c5 : f.fontFamily = some "monospace" <;>
      simp only [c1, c2, c3, c4, c5, if_true, if_false, ho, hs, hs', hla, decide_true, decide_false, Bool.true_and, Bool.false_and,
        Bool.false_or, Option.isSome_some, Option.isSome_none, Bool.or_assoc]
  unfold marksOf htmlMarksOf
  simp only [hop, h1, h2, h3, h4, h5, h6, hlink, Option.getD_some]
  cases hf : f.anchorHref with
  | none => simp
  | some x => simp only [Option.map_some, Option.bind_some, linkElem_attr]; simp

theorem head_if {c : Prop} [Decidable c] {es : List HtmlElem} {tag : List Char} (ht : tag ≠ "pre".toList)
    (h : (es.head?.map HtmlElem.name) ≠ some "pre".toList) :
    ((if c then (⟨tag, []⟩ : HtmlElem) :: es else es).head?.map HtmlElem.name) ≠ some "pre".toList := by
  split
  · simpa using ht
  · exact h

/-- A formatted text. -/
theorem Inl.marks {es : List HtmlElem} (h : Clean es) (f : CharFormat) (t : List Char) :
    Inl (Store.htmlMarks f (escapeHtmlExport t)) es (t.map fun c => (c, htmlMarksOf (some f))) := by
  rw [← marksOf_opened h]
  have hb : Inl (escapeHtmlExport t) (opened f es) _ := Inl.escape t (opened f es)
  generalize (t.map fun c => (c, marksOf (opened f es))) = cs at hb ⊢
  unfold Store.htmlMarks
  unfold opened at hb
  simp only at hb ⊢
  cases hf : f.anchorHref with
  | none =>
    simp only [hf] at hb ⊢
    have hes := h.head
    exact inl_if (by decide) hes (inl_if (by decide) (head_if (by decide) hes)
      (inl_if (by decide) (head_if (by decide) (head_if (by decide) hes))
      (inl_if (by decide) (head_if (by decide) (head_if (by decide) (head_if (by decide) hes)))
      (inl_if (by decide) (head_if (by decide) (head_if (by decide) (head_if (by decide) (head_if (by decide) hes))))
        hb))))
  | some href =>
    simp only [hf] at hb ⊢
    apply Inl.link
    have hes : ((linkElem href.toList :: es).head?.map HtmlElem.name) ≠ some "pre".toList := by
      show some ['a'] ≠ _; decide
    exact inl_if (by decide) hes (inl_if (by decide) (head_if (by decide) hes)
      (inl_if (by decide) (head_if (by decide) (head_if (by decide) hes))
      (inl_if (by decide) (head_if (by decide) (head_if (by decide) (head_if (by decide) hes)))
      (inl_if (by decide) (head_if (by decide) (head_if (by decide) (head_if (by decide) (head_if (by decide) hes))))
        hb))))

/-- The segments of a paragraph without images. -/
theorem Inl.segments {es : List HtmlElem} (h : Clean es) {segs : List (Segment CharFormat)} {cs : List SChar}
    (hs : segItems segs = cs.map fun c => .char c.1 (c.2.getD {})) :
    Inl (segs.flatMap Store.htmlSegment) es (marked cs) := by
  induction segs generalizing cs with
  | nil =>
    have : cs = [] := by simpa [segItems] using hs.symm
    subst this
    exact Inl.nil es
  | cons g segs ih =>
    rw [show g :: segs = [g] ++ segs from rfl, segItems_append] at hs
    cases g with
    | image i =>
      cases cs with
      | nil => simp [segItems] at hs
      | cons c cs => simp [segItems] at hs
    | text t f =>
      have e : segItems [Segment.text t f] = t.map fun c => .char c f := by simp [segItems]
      rw [e] at hs
      obtain ⟨c1, c2, rfl, hc1, hc2⟩ := List.map_eq_append_iff.mp hs.symm
      have hm : marked c1 = t.map fun c => (c, htmlMarksOf (some f)) := by
        clear hs
        induction c1 generalizing t with
        | nil =>
          have : t = [] := by simpa using hc1.symm
          subst this; rfl
        | cons x c1 ih1 =>
          cases t with
          | nil => simp at hc1
          | cons y t =>
            simp only [List.map_cons, List.cons.injEq] at hc1
            have := ih1 t (by simp [segItems]) hc1.2
            simp only [marked, List.map_cons, List.cons.injEq] at this ⊢
            obtain ⟨h1, h2⟩ := hc1
            simp only [Item.char.injEq] at h1
            refine ⟨?_, this⟩
            rw [h1.1]
            unfold htmlMarksOf
            rw [h1.2]; rfl
      rw [show marked (c1 ++ c2) = marked c1 ++ marked c2 by simp [marked], List.flatMap_cons]
      refine Inl.append ?_ (ih hc2.symm)
      rw [hm]
      unfold Store.htmlSegment
      by_cases ht : t = []
      · subst ht; simp only [if_true]; exact Inl.nil es
      · simp only [ht, if_false]; exact Inl.marks h f t

/-! ### Paragraphs -/

/-- `x`, read outside a paragraph with the elements `outer` open, adds the paragraphs `hps`. -/
def Par (x : List Char) (outer : List HtmlElem) (hps : List HtmlPara) : Prop :=
  ∃ ts, Tok x ts ∧ ∀ ps, Runs ts ⟨outer, false, ps⟩ ⟨outer, false, hps.reverse ++ ps⟩

theorem Par.nil (es : List HtmlElem) : Par [] es [] := ⟨[], Tok.nil, fun ps => rfl⟩

theorem Par.append {x y : List Char} {es : List HtmlElem} {a b : List HtmlPara} (h : Par x es a) (k : Par y es b) :
    Par (x ++ y) es (a ++ b) := by
  obtain ⟨ts, h1, h2⟩ := h
  obtain ⟨us, k1, k2⟩ := k
  refine ⟨ts ++ us, h1.append k1, fun ps => ?_⟩
  have := (h2 ps).append (k2 (a.reverse ++ ps))
  simpa using this

theorem elemOf_name_slash {body : List Char} (h : (elemOf body).name.head? ≠ some '/') : body.head? ≠ some '/' := by
  intro e
  cases body with
  | nil => cases e
  | cons c n =>
    simp only [List.head?_cons, Option.some.injEq] at e
    subst e
    exact h (by simp [elemOf, List.takeWhile])

/-- An element holding a paragraph. -/
theorem Par.elem {x body tag : List Char} {outer : List HtmlElem} {cs : List (Char × HtmlMarks)} {k : HtmlKind}
    (hb : Tok ('<' :: body ++ ['>']) [.tag body]) (hc : Tok ('<' :: ('/' :: tag) ++ ['>']) [.tag ('/' :: tag)])
    (hn : (elemOf body).name = tag) (hs : tag.head? ≠ some '/') (hm : tag ≠ "meta".toList)
    (hk : paraKind (elemOf body) outer = some k) (h : Inl x (elemOf body :: outer) cs) :
    Par ('<' :: body ++ ['>'] ++ x ++ ('<' :: '/' :: tag ++ ['>'])) outer
      [⟨k, (elemOf body).styles, cs⟩] := by
  obtain ⟨ts, h1, h2⟩ := h
  refine ⟨_, (hb.append h1).append hc, fun ps => ?_⟩
  generalize hst : (elemOf body).styles = st
  have e1 : Runs [.tag body] ⟨outer, false, ps⟩ ⟨elemOf body :: outer, true, ⟨k, st, []⟩ :: ps⟩ := by
    apply Runs.one
    have hslash : body.head? ≠ some '/' := elemOf_name_slash (by rw [hn]; exact hs)
    simp only [HtmlReader.step, if_neg hslash, HtmlReader.openElem]
    rw [if_neg (by rw [hn]; exact hm), hk]
    simp only [hst]
  have e2 : Runs [.tag ('/' :: tag)] ⟨elemOf body :: outer, true, ⟨k, st, cs⟩ :: ps⟩ ⟨outer, false, ⟨k, st, cs⟩ :: ps⟩ := by
    apply Runs.one
    simp [HtmlReader.step, HtmlReader.closeElem, hn, hk]
  have := (e1.append (h2 ⟨k, st, []⟩ ps)).append e2
  simpa using this

/-- An element around paragraphs. -/
theorem Par.outer {x tag : List Char} {outer : List HtmlElem} {hps : List HtmlPara} (ht : tag ∈ htmlOuter)
    (h : Par x (⟨tag, []⟩ :: outer) hps) : Par (Store.htmlElem tag x) outer hps := by
  obtain ⟨ts, h1, h2⟩ := h
  simp only [htmlOuter, List.map_cons, List.map_nil, List.mem_cons, List.not_mem_nil, or_false] at ht
  have he : elemOf tag = ⟨tag, []⟩ := by
    rcases ht with rfl | rfl | rfl | rfl | rfl <;> rfl
  have hb : Tok ('<' :: tag ++ ['>']) [.tag tag] := by
    apply Tok.tag
    rcases ht with rfl | rfl | rfl | rfl | rfl <;> decide
  have hc : Tok ('<' :: ('/' :: tag) ++ ['>']) [.tag ('/' :: tag)] := by
    apply Tok.tag
    rcases ht with rfl | rfl | rfl | rfl | rfl <;> decide
  have hsl : tag.head? ≠ some '/' := by
    rcases ht with rfl | rfl | rfl | rfl | rfl <;> decide
  have hk : ∀ es, paraKind ⟨tag, []⟩ es = none := by
    intro es
    rcases ht with rfl | rfl | rfl | rfl | rfl <;> rfl
  have hmeta : tag ≠ "meta".toList := by
    rcases ht with rfl | rfl | rfl | rfl | rfl <;> decide
  have hin : tag ∈ htmlOuter := by
    rcases ht with rfl | rfl | rfl | rfl | rfl <;> decide
  have hall := (hb.append h1).append hc
  refine ⟨[.tag tag] ++ ts ++ [.tag ('/' :: tag)], by simpa [Store.htmlElem] using hall, fun ps => ?_⟩
  have e1 : Runs [.tag tag] ⟨outer, false, ps⟩ ⟨⟨tag, []⟩ :: outer, false, ps⟩ := by
    apply Runs.one
    simp only [HtmlReader.step, if_neg hsl, HtmlReader.openElem, he]
    rw [if_neg hmeta, hk]
    simp only [if_pos hin]
  have e2 : Runs [.tag ('/' :: tag)] ⟨⟨tag, []⟩ :: outer, false, hps.reverse ++ ps⟩ ⟨outer, false, hps.reverse ++ ps⟩ := by
    apply Runs.one
    simp [HtmlReader.step, HtmlReader.closeElem]
  exact (e1.append (h2 ps)).append e2

/-! ### Styles -/

/-- A declaration that can be read back. -/
structure DeclOk (d : List Char × List Char) : Prop where
  key : ∀ c ∈ d.1, c ∉ [';', ':', ' ', '"', '&', '\r']
  nonempty : d.1 ≠ []
  value : StyleSafe d.2

def declText (d : List Char × List Char) : List Char := d.1 ++ ": ".toList ++ d.2

theorem splitOnChar_none {x : Char} {t : List Char} (h : x ∉ t) : splitOnChar x t = [t] := by
  induction t with
  | nil => rfl
  | cons c t ih =>
    have hc : c ≠ x := fun e => h (by simp [e])
    simp only [splitOnChar, if_neg hc, ih fun h' => h (by simp [h'])]

theorem splitOnChar_append {x : Char} {t u : List Char} (h : x ∉ t) :
    splitOnChar x (t ++ x :: u) = t :: splitOnChar x u := by
  induction t with
  | nil => simp [splitOnChar]
  | cons c t ih =>
    have hc : c ≠ x := fun e => h (by simp [e])
    simp only [List.cons_append, splitOnChar, if_neg hc, ih fun h' => h (by simp [h'])]

theorem DeclOk.no_semi {d : List Char × List Char} (h : DeclOk d) : ';' ∉ declText d := by
  unfold declText
  simp only [List.mem_append, not_or]
  refine ⟨⟨fun hm => h.key _ hm (by simp), by decide⟩, fun hm => h.value _ hm (by simp)⟩

theorem takeWhile_until {P : Char → Bool} {a b : List Char} {c : Char} (h : ∀ x ∈ a, P x = true) (hc : P c = false) :
    (a ++ c :: b).takeWhile P = a ∧ (a ++ c :: b).dropWhile P = c :: b := by
  induction a with
  | nil => simp [hc]
  | cons y a ih =>
    have hy := h y (by simp)
    have := ih fun x hx => h x (by simp [hx])
    simp [List.takeWhile, List.dropWhile, hy, this]

theorem DeclOk.parse {d : List Char × List Char} (h : DeclOk d) (sp : List Char) (hsp : ∀ c ∈ sp, c = ' ') :
    (((sp ++ declText d).dropWhile (· = ' ')).takeWhile (· ≠ ':'),
      (((sp ++ declText d).dropWhile (· = ' ')).dropWhile (· ≠ ':')).drop 2) = d := by
  obtain ⟨k, v⟩ := d
  have hk := h.key
  have hdrop : (sp ++ declText (k, v)).dropWhile (· = ' ') = k ++ ':' :: (' ' :: v) := by
    have hne := h.nonempty
    cases k with
    | nil => exact absurd rfl hne
    | cons c k =>
      have hc : c ≠ ' ' := fun e => hk c (by simp) (by simp [e])
      have := (takeWhile_until (P := fun x => decide (x = ' ')) (a := sp) (b := k ++ ": ".toList ++ v) (c := c)
        (by simpa using hsp) (by simpa using hc)).2
      simpa [declText] using this
  rw [hdrop]
  have := takeWhile_until (P := fun x => decide (x ≠ ':')) (a := k) (b := ' ' :: v) (c := ':')
    (by intro x hx; simp only [ne_eq, decide_not, Bool.not_eq_true', decide_eq_false_iff_not]
        exact fun e => hk x hx (by simp [e])) (by simp)
  rw [this.1, this.2]
  simp

theorem declarations_join (d : List Char × List Char) (ds : List (List Char × List Char))
    (h : ∀ e ∈ d :: ds, DeclOk e) :
    declarations (Store.joinWith "; ".toList ((d :: ds).map declText)) = d :: ds := by
  have key : ∀ (ds : List (List Char × List Char)) (d : List Char × List Char) (sp : List Char),
      (∀ e ∈ d :: ds, DeclOk e) → (∀ c ∈ sp, c = ' ') →
      declarations (sp ++ Store.joinWith "; ".toList ((d :: ds).map declText)) = d :: ds := by
    intro ds
    induction ds with
    | nil =>
      intro d sp hd hsp
      have hns : ';' ∉ sp ++ declText d := by
        simp only [List.mem_append, not_or]
        exact ⟨fun hm => absurd (hsp _ hm) (by decide), (hd d (by simp)).no_semi⟩
      simp only [List.map_cons, List.map_nil, Store.joinWith, List.flatMap_nil, List.append_nil]
      unfold declarations
      rw [splitOnChar_none hns]
      simp only [List.map_cons, List.map_nil]
      exact congrArg (fun x => [x]) ((hd d (by simp)).parse sp hsp)
    | cons e ds ih =>
      intro d sp hd hsp
      have hns : ';' ∉ sp ++ declText d := by
        simp only [List.mem_append, not_or]
        exact ⟨fun hm => absurd (hsp _ hm) (by decide), (hd d (by simp)).no_semi⟩
      have hj : sp ++ Store.joinWith "; ".toList ((d :: e :: ds).map declText) =
          (sp ++ declText d) ++ ';' :: ([' '] ++ Store.joinWith "; ".toList ((e :: ds).map declText)) := by
        simp [Store.joinWith]
      have hi := ih e [' '] (fun x hx => hd x (by simp only [List.mem_cons] at hx ⊢; exact .inr hx)) (by simp)
      unfold declarations at hi ⊢
      rw [hj, splitOnChar_append hns, List.map_cons, hi]
      exact congrArg (fun x => x :: e :: ds) ((hd d (by simp)).parse sp hsp)
  exact key ds d [] h (by simp)

theorem htmlStyles_eq (num : Int → List Char) (b : Block) :
    Store.htmlStyles num b = (styleOf num b).map declText := by
  have e : ∀ k v : String, declText (k.toList, v.toList) = k.toList ++ ": ".toList ++ v.toList := fun k v => rfl
  unfold Store.htmlStyles styleOf
  simp only [List.map_append]
  congr 1
  congr 1
  congr 1
  congr 1
  · cases b.fmtAlignment with
    | none => rfl
    | some a => cases a <;> (simp only [List.map_cons, List.map_nil, e]; congr 1)
  · cases b.fmtLineHeight <;> simp [declText]
  · split <;> rfl
  · split <;> rfl
  · cases b.fmtBackgroundColor <;> simp [declText]

theorem styleOf_ok {num : Int → List Char} {b : Block} (hn : ∀ n, StyleSafe (num n))
    (hc : ∀ c, b.fmtBackgroundColor = some c → StyleSafe c.toList) : ∀ d ∈ styleOf num b, DeclOk d := by
  intro d hd
  unfold styleOf at hd
  simp only [List.mem_append] at hd
  have lit : ∀ (k : String) (v : List Char), (∀ c ∈ k.toList, c ∉ [';', ':', ' ', '"', '&', '\r']) →
      k.toList ≠ [] → StyleSafe v → DeclOk (k.toList, v) := fun k v a b c => ⟨a, b, c⟩
  rcases hd with (((hd | hd) | hd) | hd) | hd
  · cases ha : b.fmtAlignment with
    | none => rw [ha] at hd; simp at hd
    | some a =>
      rw [ha] at hd
      cases a <;> (simp only [List.mem_singleton] at hd; subst hd; exact lit _ _ (by decide) (by decide) (by unfold StyleSafe; decide))
  · cases ha : b.fmtLineHeight with
    | none => rw [ha] at hd; simp at hd
    | some n =>
      rw [ha] at hd
      simp only [List.mem_singleton] at hd; subst hd
      exact lit _ _ (by decide) (by decide) (hn n)
  · split at hd
    · simp only [List.mem_singleton] at hd; subst hd; exact lit _ _ (by decide) (by decide) (by unfold StyleSafe; decide)
    · simp at hd
  · split at hd
    · simp only [List.mem_singleton] at hd; subst hd; exact lit _ _ (by decide) (by decide) (by unfold StyleSafe; decide)
    · simp at hd
  · cases ha : b.fmtBackgroundColor with
    | none => rw [ha] at hd; simp at hd
    | some c =>
      rw [ha] at hd
      simp only [List.mem_singleton] at hd; subst hd
      exact lit _ _ (by decide) (by decide) (hc c ha)

end Verif

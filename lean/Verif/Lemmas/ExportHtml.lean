import Verif.Lemmas.Html
import Verif.Lemmas.Inspect
/- What HTML export writes for the paragraphs of a document. -/
namespace Verif

variable {s : Store} {d : Document} {f : Nat} {ps : List SPara} {p : SPara}

/-- The paragraphs can be read and are stored. -/
structure Pages (s : Store) (ps : List SPara) : Prop extends Legible s ps where
  stored : ∀ {p}, p ∈ ps → s.blocks p.id = some (p.entity (s.storedPos p))

theorem Shows.pages (h : Shows s d ps) : Pages s ps := ⟨h.legible, fun hp => h.stored hp⟩

theorem Pages.blockSegments (h : Pages s ps) (hp : p ∈ ps) :
    ∃ segs, s.blockSegments p.id = some segs ∧ segItems segs = p.chars.map fun c => .char c.1 (c.2.getD {}) := by
  obtain ⟨segs, h1, h2⟩ := (h.formats p hp).segments {}
  refine ⟨segs, ?_, h2⟩
  unfold Store.blockSegments Store.segmentsOf Store.runsOf Store.imagesOf
  rw [h.content hp, h.images p hp]
  exact h1

theorem Pages.inlineHtml (h : Pages s ps) (hp : p ∈ ps) (x : Int) {es : List HtmlElem} (hes : Clean es) :
    ∃ t, s.inlineHtml (p.entity x) = some t ∧ Inl t es (marked p.chars) := by
  obtain ⟨segs, h1, h2⟩ := h.blockSegments hp
  have hid : (p.entity x).id = p.id := rfl
  refine ⟨segs.flatMap Store.htmlSegment, ?_, Inl.segments hes h2⟩
  unfold Store.inlineHtml
  rw [hid, h1]; rfl

theorem takeWhile_all {α : Type} {P : α → Bool} : ∀ {a : List α}, (∀ c ∈ a, P c = true) → a.takeWhile P = a
  | [], _ => rfl
  | c :: a, h => by
    rw [List.takeWhile_cons_of_pos (h c (by simp)), takeWhile_all fun x hx => h x (by simp [hx])]

theorem dropWhile_all {α : Type} {P : α → Bool} : ∀ {a : List α}, (∀ c ∈ a, P c = true) → a.dropWhile P = []
  | [], _ => rfl
  | c :: a, h => by
    rw [List.dropWhile_cons_of_pos (h c (by simp)), dropWhile_all fun x hx => h x (by simp [hx])]

/-- The tags of plain paragraphs and headings. -/
def bodyTags : List (List Char) := ["p", "h1", "h2", "h3", "h4", "h5", "h6"].map String.toList

theorem bodyTags_facts {tag : List Char} (h : tag ∈ bodyTags) :
    (∀ c ∈ tag, c ≠ '"' ∧ c ≠ '>') ∧ (∀ c ∈ tag, c ≠ ' ') ∧ tag.head? ≠ some '/' ∧ tag ≠ "meta".toList ∧
    tag ∉ "pre".toList :: htmlInner ∧ Tok ('<' :: ('/' :: tag) ++ ['>']) [.tag ('/' :: tag)] := by
  simp only [bodyTags, List.map_cons, List.map_nil, List.mem_cons, List.not_mem_nil, or_false] at h
  rcases h with rfl | rfl | rfl | rfl | rfl | rfl | rfl <;>
    exact ⟨by decide, by decide, by decide, by decide, by decide, Tok.tag _ (by decide)⟩

/-- A paragraph element with the style `ds`. -/
theorem Par.body {x tag : List Char} {outer : List HtmlElem} {cs : List (Char × HtmlMarks)} {k : HtmlKind}
    {ds : List (List Char × List Char)} (ht : tag ∈ bodyTags) (hk : ∀ r, paraKind ⟨tag, r⟩ outer = some k)
    (hds : ∀ e ∈ ds, DeclOk e) (ho : Clean outer) (h : ∀ es, Clean es → Inl x es cs) :
    Par ('<' :: tag ++ (if ds.map declText = [] then [] else " style=\"".toList ++
      Store.joinWith "; ".toList (ds.map declText) ++ ['"']) ++ '>' :: x ++ '<' :: '/' :: tag ++ ['>']) outer
      [⟨k, ds, cs⟩] := by
  obtain ⟨t1, t2, t3, t4, t5, t6⟩ := bodyTags_facts ht
  cases ds with
  | nil =>
    have he : elemOf tag = ⟨tag, []⟩ := by
      unfold elemOf
      have ha : ∀ c ∈ tag, decide (c ≠ ' ') = true := by intro c hc; simpa using t2 c hc
      rw [takeWhile_all ha, dropWhile_all ha]
    have := Par.elem (x := x) (cs := cs) (outer := outer) (k := k) (Tok.tag tag t1) t6 (by rw [he]) t3 t4
      (by rw [he]; exact hk _) (h _ (by
        intro e hm
        rcases List.mem_cons.mp hm with rfl | hm
        · rw [he]; exact t5
        · exact ho e hm))
    rw [he] at this
    simpa [HtmlElem.styles, HtmlElem.attr] using this
  | cons e ds =>
    have hne : ¬ (e :: ds).map declText = [] := by simp
    rw [if_neg hne]
    have hdec := declarations_join e ds hds
    generalize hv : Store.joinWith "; ".toList ((e :: ds).map declText) = v at hdec ⊢
    have hsafe : ∀ c ∈ v, c ∉ ['"', '&', '\r'] := by
      have hone : ∀ y ∈ (e :: ds).map declText, ∀ c ∈ y, c ∉ ['"', '&', '\r'] := by
        intro y hy c hc
        obtain ⟨z, hz, rfl⟩ := List.mem_map.mp hy
        have hz' := hds z hz
        unfold declText at hc
        simp only [List.mem_append] at hc
        rcases hc with (hc | hc) | hc
        · have := hz'.key c hc; simp only [List.mem_cons, List.not_mem_nil, or_false, not_or] at this ⊢; simp [this]
        · have : c = ':' ∨ c = ' ' := by simpa using hc
          rcases this with rfl | rfl <;> decide
        · have := hz'.value c hc; simp only [List.mem_cons, List.not_mem_nil, or_false, not_or] at this ⊢; simp [this]
      rw [← hv]
      intro c hc
      simp only [List.map_cons, Store.joinWith, List.mem_append, List.mem_flatMap] at hc
      rcases hc with hc | ⟨y, hy, hc⟩
      · exact hone _ (by simp) c hc
      · rcases hc with hc | hc
        · have : c = ';' ∨ c = ' ' := by simpa using hc
          rcases this with rfl | rfl <;> decide
        · exact hone y (by simp only [List.map_cons, List.mem_cons]; exact .inr hy) c hc
    have hquote : '"' ∉ v := fun hm => hsafe _ hm (by simp)
    have he : elemOf (tag ++ " style=".toList ++ '"' :: v ++ ['"']) = ⟨tag, " style=\"".toList ++ (v ++ ['"'])⟩ := by
      unfold elemOf
      have ha : ∀ c ∈ tag, decide (c ≠ ' ') = true := by intro c hc; simpa using t2 c hc
      have := takeWhile_until (P := fun c => decide (c ≠ ' ')) (a := tag) (b := "style=\"".toList ++ (v ++ ['"']))
        (c := ' ') ha (by simp)
      have hl : tag ++ " style=".toList ++ '"' :: v ++ ['"'] = tag ++ ' ' :: ("style=\"".toList ++ (v ++ ['"'])) := by
        simp
      rw [hl, this.1, this.2]
      simp
    have htok : Tok ('<' :: (tag ++ " style=".toList ++ '"' :: v ++ ['"']) ++ ['>'])
        [.tag (tag ++ " style=".toList ++ '"' :: v ++ ['"'])] := by
      have := Tok.tagAttr (tag ++ " style=".toList) v (by
        intro c hc
        rcases List.mem_append.mp hc with hc | hc
        · exact t1 c hc
        · have : ∀ c ∈ " style=".toList, c ≠ '"' ∧ c ≠ '>' := by decide
          exact this c hc) hquote
      simpa using this
    have hst : HtmlElem.styles ⟨tag, " style=\"".toList ++ (v ++ ['"'])⟩ = e :: ds := by
      have h1 : (' ' :: "style".toList ++ "=\"".toList) = " style=\"".toList := by decide
      have : HtmlElem.attr ⟨tag, " style=\"".toList ++ (v ++ ['"'])⟩ "style".toList = some v := by
        unfold HtmlElem.attr
        simp only [h1]
        rw [if_pos (by rw [List.isPrefixOf_iff_prefix]; exact List.prefix_append _ _), List.drop_left,
          List.dropLast_concat]
        refine attrText_plain v fun c hc => ?_
        have := hsafe c hc
        simp only [List.mem_cons, List.not_mem_nil, or_false, not_or] at this
        exact this.2
      unfold HtmlElem.styles
      rw [this]
      exact hdec
    have := Par.elem (x := x) (cs := cs) (outer := outer) (k := k) htok t6 (by rw [he]) t3 t4
      (by rw [he]; exact hk _) (h _ (by
        intro e' hm
        rcases List.mem_cons.mp hm with rfl | hm
        · rw [he]; exact t5
        · exact ho e' hm))
    rw [he, hst] at this
    simpa using this

/-- A heading or a plain paragraph. -/
theorem Pages.paraHtml {num : Int → List Char} (h : Pages s ps) (hp : p ∈ ps) (x : Int)
    (hn : ∀ n, StyleSafe (num n)) (hc : SafeColors ps) {outer : List HtmlElem} (ho : Clean outer) :
    ∃ t, Store.paraHtml num s (p.entity x) = some t ∧ Par t outer [bodyOf num p] := by
  obtain ⟨t, h1, _⟩ := h.inlineHtml hp x (es := []) (by intro e he; cases he)
  have h2 : ∀ es, Clean es → Inl t es (marked p.chars) := by
    intro es hes
    obtain ⟨t', h1', h2'⟩ := h.inlineHtml hp x hes
    rw [h1] at h1'; cases h1'; exact h2'
  have hsty : styleOf num (p.entity x) = styleOf num p.shape := rfl
  have hlev : (p.entity x).fmtHeadingLevel = p.shape.fmtHeadingLevel := rfl
  have hok : ∀ e ∈ styleOf num p.shape, DeclOk e := styleOf_ok hn (hc p hp)
  unfold Store.paraHtml bodyOf
  rw [h1, hlev]
  simp only [Option.map_some, htmlStyles_eq, hsty]
  refine ⟨_, rfl, ?_⟩
  cases p.shape.fmtHeadingLevel with
  | none => exact Par.body (tag := ['p']) (by decide) (fun r => rfl) hok ho h2
  | some l =>
    have hcase : max 1 (min 6 l) = 1 ∨ max 1 (min 6 l) = 2 ∨ max 1 (min 6 l) = 3 ∨ max 1 (min 6 l) = 4 ∨
        max 1 (min 6 l) = 5 ∨ max 1 (min 6 l) = 6 := by omega
    simp only
    rcases hcase with e | e | e | e | e | e <;> rw [e]
    · exact Par.body (tag := "h1".toList) (by decide) (fun r => rfl) hok ho h2
    · exact Par.body (tag := "h2".toList) (by decide) (fun r => rfl) hok ho h2
    · exact Par.body (tag := "h3".toList) (by decide) (fun r => rfl) hok ho h2
    · exact Par.body (tag := "h4".toList) (by decide) (fun r => rfl) hok ho h2
    · exact Par.body (tag := "h5".toList) (by decide) (fun r => rfl) hok ho h2
    · exact Par.body (tag := "h6".toList) (by decide) (fun r => rfl) hok ho h2

theorem rawText_of_items {segs : List (Segment CharFormat)} {cs : List SChar} {d : CharFormat}
    (h : segItems segs = cs.map fun c => .char c.1 (c.2.getD d)) : Store.rawText segs = cs.map Prod.fst := by
  rw [← segsText_of_items h]
  have himg : ∀ g ∈ segs, ∀ i, g ≠ .image i := by
    rintro g hg i rfl
    obtain ⟨a, b, rfl⟩ := List.append_of_mem hg
    have : Item.image i ∈ segItems (a ++ Segment.image i :: b) := by
      rw [segItems_append]; simp [segItems]
    rw [h] at this
    obtain ⟨c, _, hc⟩ := List.mem_map.mp this
    cases hc
  unfold Store.rawText segsText
  clear h
  induction segs with
  | nil => rfl
  | cons g segs ih =>
    rw [List.flatMap_cons, List.flatMap_cons, ih fun g' hg' => himg g' (by simp [hg'])]
    cases g with
    | text t f => rfl
    | image i => exact absurd rfl (himg _ (by simp) i)

/-- `<pre><code>…</code></pre>`. -/
theorem Par.code {cbody lang : List Char} {outer : List HtmlElem} (t : List Char)
    (hb : Tok ('<' :: cbody ++ ['>']) [.tag cbody]) (hn : (elemOf cbody).name = "code".toList)
    (hl : languageOf (elemOf cbody) = lang) (ho : Clean outer) :
    Par ("<pre>".toList ++ ('<' :: cbody ++ ['>']) ++ escapeHtmlExport t ++ "</code></pre>".toList) outer
      [⟨.code lang, [], t.map fun c => (c, {})⟩] := by
  have hm : marksOf (elemOf cbody :: ⟨"pre".toList, []⟩ :: outer) = {} := by
    have ho' : ∀ (n : String) (e : HtmlElem) es, isOpen n (e :: es) = (decide (e.name = n.toList) || isOpen n es) :=
      fun n e es => by simp [isOpen]
    unfold marksOf
    simp only [ho', hn, ho.isOpen (n := "strong") (by decide), ho.isOpen (n := "em") (by decide),
      ho.isOpen (n := "u") (by decide), ho.isOpen (n := "s") (by decide), List.find?]
    rw [ho.find]
    simp
  obtain ⟨ts, h1, h2⟩ := Inl.escape t (elemOf cbody :: ⟨"pre".toList, []⟩ :: outer)
  rw [hm] at h2
  have hpre : Tok ('<' :: "pre".toList ++ ['>']) [.tag "pre".toList] := Tok.tag _ (by decide)
  have hc1 : Tok ('<' :: "/code".toList ++ ['>']) [.tag "/code".toList] := Tok.tag _ (by decide)
  have hc2 : Tok ('<' :: "/pre".toList ++ ['>']) [.tag "/pre".toList] := Tok.tag _ (by decide)
  refine ⟨[.tag "pre".toList] ++ [.tag cbody] ++ ts ++ ([.tag "/code".toList] ++ [.tag "/pre".toList]),
    by simpa using ((hpre.append hb).append h1).append (hc1.append hc2), fun ps => ?_⟩
  have e1 : Runs [.tag "pre".toList] ⟨outer, false, ps⟩
      ⟨⟨"pre".toList, []⟩ :: outer, true, ⟨.code [], [], []⟩ :: ps⟩ := Runs.one rfl
  have e2 : Runs [.tag cbody] ⟨⟨"pre".toList, []⟩ :: outer, true, ⟨.code [], [], []⟩ :: ps⟩
      ⟨elemOf cbody :: ⟨"pre".toList, []⟩ :: outer, true, ⟨.code lang, [], []⟩ :: ps⟩ := by
    apply Runs.one
    have hslash : cbody.head? ≠ some '/' := elemOf_name_slash (by rw [hn]; decide)
    have hpk : ∀ es', paraKind (elemOf cbody) es' = none := by
      intro es'; simp only [paraKind, hn]; rfl
    simp only [HtmlReader.step, if_neg hslash, HtmlReader.openElem]
    rw [if_neg (by rw [hn]; decide), hpk]
    simp only
    rw [if_pos ⟨hn, rfl⟩, hl]
  have e4 : Runs [.tag "/code".toList] ⟨elemOf cbody :: ⟨"pre".toList, []⟩ :: outer, true,
      ⟨.code lang, [], t.map fun c => (c, {})⟩ :: ps⟩
      ⟨⟨"pre".toList, []⟩ :: outer, true, ⟨.code lang, [], t.map fun c => (c, {})⟩ :: ps⟩ := by
    apply Runs.one
    have hpk : ∀ es', paraKind (elemOf cbody) es' = none := by
      intro es'; simp only [paraKind, hn]; rfl
    simp [HtmlReader.step, HtmlReader.closeElem, hn, hpk]
  have e5 : Runs [.tag "/pre".toList] ⟨⟨"pre".toList, []⟩ :: outer, true,
      ⟨.code lang, [], t.map fun c => (c, {})⟩ :: ps⟩
      ⟨outer, false, ⟨.code lang, [], t.map fun c => (c, {})⟩ :: ps⟩ := Runs.one rfl
  have e3 := h2 ⟨.code lang, [], []⟩ ps
  exact ((e1.append e2).append e3).append (e4.append e5)

theorem Pages.codeHtml (h : Pages s ps) (hp : p ∈ ps) (x : Int) {outer : List HtmlElem} (ho : Clean outer) :
    ∃ t, s.codeHtml (p.entity x) = some t ∧ Par t outer [codeOf p] := by
  obtain ⟨segs, h1, h2⟩ := h.blockSegments hp
  have hid : (p.entity x).id = p.id := rfl
  have hlang : (p.entity x).fmtCodeLanguage = p.shape.fmtCodeLanguage := rfl
  unfold Store.codeHtml codeOf
  rw [hid, h1, hlang]
  simp only [Option.map_some, rawText_of_items h2]
  refine ⟨_, rfl, ?_⟩
  have hcs : (p.chars.map fun c => (c.1, ({} : HtmlMarks))) = (p.chars.map Prod.fst).map fun c => (c, {}) := by
    rw [List.map_map]; rfl
  rw [hcs]
  generalize (p.shape.fmtCodeLanguage.getD "").toList = lang
  by_cases hl : lang = []
  · rw [if_pos hl, hl]
    exact Par.code (cbody := "code".toList) _ (Tok.tag _ (by decide)) rfl rfl ho
  · rw [if_neg hl]
    have htok := Tok.tagAttr "code class=".toList ("language-".toList ++ escapeHtmlExport lang) (by decide) (by
      intro hm
      rcases List.mem_append.mp hm with hm | hm
      · exact absurd hm (by decide)
      · exact escape_no_quote lang hm)
    generalize hbody : "code class=".toList ++ '"' :: ("language-".toList ++ escapeHtmlExport lang) ++ ['"'] = cbody
      at htok
    have hsplit : cbody = "code".toList ++ ' ' :: ("class=\"".toList ++
        (("language-".toList ++ escapeHtmlExport lang) ++ ['"'])) := by
      rw [← hbody]; simp
    have he : elemOf cbody = ⟨"code".toList, " class=\"".toList ++
        (("language-".toList ++ escapeHtmlExport lang) ++ ['"'])⟩ := by
      have := takeWhile_until (P := fun c => decide (c ≠ ' ')) (a := "code".toList)
        (b := "class=\"".toList ++ (("language-".toList ++ escapeHtmlExport lang) ++ ['"']))
        (c := ' ') (by decide) (by simp)
      unfold elemOf
      rw [hsplit, this.1, this.2]
      simp
    have hattr : languageOf (elemOf cbody) = lang := by
      have h1 : (' ' :: "class".toList ++ "=\"".toList) = " class=\"".toList := by decide
      have : HtmlElem.attr (elemOf cbody) "class".toList = some ("language-".toList ++ lang) := by
        rw [he]
        unfold HtmlElem.attr
        simp only [h1]
        rw [if_pos (by rw [List.isPrefixOf_iff_prefix]; exact List.prefix_append _ _), List.drop_left,
          List.dropLast_concat]
        have := attrText_escape lang []
        simp [attrText] at this ⊢
        simp [this]
      unfold languageOf
      rw [this]
      simp
    have := Par.code (cbody := cbody) (lang := lang) (outer := outer) (p.chars.map Prod.fst) (by
      have e : '<' :: cbody ++ ['>'] = '<' :: "code class=".toList ++
          '"' :: ("language-".toList ++ escapeHtmlExport lang) ++ ['"', '>'] := by rw [← hbody]; simp
      rw [e]; exact htok) (by rw [he]) hattr ho
    have hx : "<code class=\"language-".toList ++ escapeHtmlExport lang ++ "\">".toList =
        '<' :: cbody ++ ['>'] := by rw [← hbody]; simp
    rw [hx]
    exact this

/-- An item. -/
theorem Pages.itemHtml (h : Pages s ps) (hp : p ∈ ps) (x : Int) {outer : List HtmlElem} (ho : Clean outer)
    (n : Bool) :
    ∃ t, s.inlineHtml (p.entity x) = some t ∧
      Par (Store.htmlElem "li".toList t) (⟨(if n then "ol" else "ul").toList, []⟩ :: outer) [listItem n p] := by
  have hcl : Clean (elemOf "li".toList :: ⟨(if n then "ol" else "ul").toList, []⟩ :: outer) := by
    intro e he
    simp only [List.mem_cons] at he
    rcases he with rfl | rfl | he
    · decide
    · cases n <;> decide
    · exact ho e he
  obtain ⟨t, h1, h2⟩ := h.inlineHtml hp x hcl
  refine ⟨t, h1, ?_⟩
  have hk : paraKind (elemOf "li".toList) (⟨(if n then "ol" else "ul").toList, []⟩ :: outer) = some (.item n) := by
    cases n <;> rfl
  have := Par.elem (tag := "li".toList) (Tok.tag "li".toList (by decide)) (Tok.tag "/li".toList (by decide)) rfl
    (by decide) (by decide) hk h2
  have e : (elemOf "li".toList).styles = [] := by decide
  rw [e] at this
  simpa [Store.htmlElem, listItem] using this

theorem Pages.blockList (h : Pages s ps) (hp : p ∈ ps) (x : Int) :
    s.blockList (p.entity x) = p.shape.list.bind s.lists := by
  unfold Store.blockList
  rw [show (p.entity x).id = p.id from rfl, h.stored hp]
  rfl

theorem numbered_eq (st : ListStyle) : Store.isOrdered st = numbered st := by cases st <;> rfl

theorem exportedPage_reset {num : Int → List Char} {lists : Nat → Option TList} (n : Bool) (qs : List SPara)
    (h : ∀ q, qs.head? = some q → itemOf lists q = none) :
    exportedPage num lists (some n) qs = exportedPage num lists none qs := by
  cases qs with
  | nil => rfl
  | cons q qs => simp only [exportedPage, h q rfl]

/-- The items of a list. -/
theorem Pages.htmlItems (h : Pages s ps) (num : Int → List Char) (n : Bool) {outer : List HtmlElem}
    (ho : Clean outer) (qs : List SPara) (hq : ∀ q ∈ qs, q ∈ ps) :
    ∃ items rs hps, s.htmlItems (qs.map fun q => q.entity (s.storedPos q)) =
        some (items, rs.map fun q => q.entity (s.storedPos q)) ∧
      Par items.flatten (⟨(if n then "ol" else "ul").toList, []⟩ :: outer) hps ∧
      exportedPage num s.lists (some n) qs = hps ++ exportedPage num s.lists none rs ∧
      (∀ q ∈ rs, q ∈ ps) ∧ rs.length ≤ qs.length ∧
      (∀ q, qs.head? = some q → (itemOf s.lists q).isSome → rs.length < qs.length) := by
  induction qs with
  | nil => exact ⟨[], [], [], rfl, Par.nil _, rfl, by simp, by simp, by simp⟩
  | cons q qs ih =>
    have hb := h.blockList (hq q (by simp)) (s.storedPos q)
    have hi : (itemOf s.lists q).isSome = (q.shape.list.bind s.lists).isSome := by
      unfold itemOf; rw [Option.isSome_map]
    rw [List.map_cons]
    unfold Store.htmlItems
    rw [hb, ← hi]
    by_cases hl : (itemOf s.lists q).isSome
    · rw [if_pos hl]
      obtain ⟨t, t1, t2⟩ := h.itemHtml (hq q (by simp)) (s.storedPos q) ho n
      obtain ⟨items, rs, hps, i1, i2, i3, i4, i5, _⟩ := ih fun q' hq' => hq q' (by simp [hq'])
      rw [t1, i1]
      refine ⟨_ :: items, rs, [listItem n q] ++ hps, rfl, ?_, ?_, i4, by simp; omega, by
        intro _ _ _; simp; omega⟩
      · rw [List.flatten_cons]; exact t2.append i2
      · obtain ⟨m, hm⟩ := Option.isSome_iff_exists.mp hl
        simp only [exportedPage, hm, i3]
        rfl
    · rw [if_neg hl]
      refine ⟨[], q :: qs, [], rfl, Par.nil _, ?_, hq, by simp, ?_⟩
      · rw [List.nil_append]
        refine exportedPage_reset n _ ?_
        intro q' hq'
        cases hq'
        simpa using hl
      · intro q' hq' hs
        cases hq'
        exact absurd hs hl

/-- The paragraphs of a frame. -/
theorem Pages.blocksHtml {num : Int → List Char} (h : Pages s ps) (hn : ∀ n, StyleSafe (num n))
    (hc : SafeColors ps) {outer : List HtmlElem} (ho : Clean outer) (fuel : Nat) (qs : List SPara)
    (hq : ∀ q ∈ qs, q ∈ ps) (hf : qs.length ≤ fuel) :
    ∃ t, s.blocksHtml num fuel (qs.map fun q => q.entity (s.storedPos q)) = some t ∧
      Par t outer (exportedPage num s.lists none qs) := by
  induction fuel generalizing qs with
  | zero =>
    have : qs = [] := List.length_eq_zero_iff.mp (by omega)
    subst this
    exact ⟨[], rfl, Par.nil _⟩
  | succ fuel ih =>
    cases qs with
    | nil => exact ⟨[], rfl, Par.nil _⟩
    | cons q qs =>
      have hqp := hq q (by simp)
      have hqs : ∀ q' ∈ qs, q' ∈ ps := fun q' hq' => hq q' (by simp [hq'])
      simp only [List.length_cons] at hf
      rw [List.map_cons]
      unfold Store.blocksHtml
      rw [show (q.entity (s.storedPos q)).fmtIsCodeBlock = q.shape.fmtIsCodeBlock from rfl]
      by_cases hcode : q.shape.fmtIsCodeBlock = some true
      · rw [if_pos hcode]
        obtain ⟨t, t1, t2⟩ := h.codeHtml hqp (s.storedPos q) ho
        obtain ⟨u, u1, u2⟩ := ih qs hqs (by omega)
        rw [t1, u1]
        refine ⟨t ++ u, rfl, ?_⟩
        have := t2.append u2
        simpa [exportedPage, pageOf, hcode] using this
      · rw [if_neg hcode, h.blockList hqp]
        cases hl : q.shape.list.bind s.lists with
        | none =>
          have hi : itemOf s.lists q = none := by simp [itemOf, hl]
          obtain ⟨t, t1, t2⟩ := h.paraHtml hqp (s.storedPos q) hn hc ho
          obtain ⟨u, u1, u2⟩ := ih qs hqs (by omega)
          simp only [t1, u1]
          refine ⟨t ++ u, rfl, ?_⟩
          have := t2.append u2
          simpa [exportedPage, pageOf, hcode, hi] using this
        | some l =>
          have hi : itemOf s.lists q = some (numbered l.style) := by simp [itemOf, hl]
          obtain ⟨items, rs, hps, i1, i2, i3, i4, i5, i6⟩ :=
            h.htmlItems num (numbered l.style) ho (q :: qs) hq
          have i6 := i6 q rfl (by rw [hi]; rfl)
          simp only [List.length_cons] at i6
          obtain ⟨u, u1, u2⟩ := ih rs i4 (by omega)
          simp only [List.map_cons] at i1
          simp only [i1, Option.bind_some, u1, Option.map_some, numbered_eq]
          refine ⟨_, rfl, ?_⟩
          have htag : (if numbered l.style then "ol".toList else "ul".toList) =
              (if numbered l.style then "ol" else "ul").toList := by split <;> rfl
          rw [htag]
          have := (Par.outer (tag := (if numbered l.style then "ol" else "ul").toList) (by
            cases numbered l.style <;> decide) i2).append u2
          rw [← i3] at this
          have hx : exportedPage num s.lists (some (numbered l.style)) (q :: qs) =
              exportedPage num s.lists none (q :: qs) := by
            simp only [exportedPage, hi, pageOf, if_neg hcode]
          rw [hx] at this
          exact this

theorem Pages.childrenHtml {num : Int → List Char} (h : Pages s ps) (hpos : ∀ p ∈ ps, 0 < p.id)
    (cells : List Nat) (sub : Nat → Option (List Char)) (qs : List SPara) (hq : ∀ q ∈ qs, q ∈ ps) (acc : List Block) :
    s.childrenHtml num cells sub (qs.map fun p => (p.id : Int)) acc =
      s.blocksHtml num (acc ++ qs.map fun q => q.entity (s.storedPos q)).length
        (acc ++ qs.map fun q => q.entity (s.storedPos q)) := by
  induction qs generalizing acc with
  | nil => simp [Store.childrenHtml]
  | cons q qs ih =>
    have h0 := hpos q (hq q (by simp))
    rw [List.map_cons]
    unfold Store.childrenHtml
    rw [if_pos (by omega), show ((q.id : Int)).toNat = q.id by omega, h.stored (hq q (by simp))]
    simp only
    rw [ih fun q' hq' => hq q' (by simp [hq'])]
    simp

theorem Shows.blockSegments (h : Shows s d ps) (hp : p ∈ ps) :
    ∃ segs, s.blockSegments p.id = some segs ∧ segItems segs = p.chars.map fun c => .char c.1 (c.2.getD {}) := h.pages.blockSegments hp

theorem Shows.blockList (h : Shows s d ps) (hp : p ∈ ps) (x : Int) : s.blockList (p.entity x) = p.shape.list.bind s.lists :=
  h.pages.blockList hp x

/-- The whole page. -/
theorem Flat.exportHtml {num : Int → List Char} (h : Flat s d f ps) (hn : ∀ n, StyleSafe (num n))
    (hc : SafeColors ps) :
    ∃ t, s.exportHtml num = some t ∧ readHtml t = some (exportedPage num s.lists none ps) := by
  have hout : Clean [⟨"body".toList, []⟩, ⟨"html".toList, []⟩] := by
    intro e he
    simp only [List.mem_cons, List.not_mem_nil, or_false] at he
    rcases he with rfl | rfl <;> decide
  obtain ⟨t, t1, ts, t2, t3⟩ := h.toShows.pages.blocksHtml hn hc hout ps.length ps (fun q hq => hq) (Nat.le_refl _)
  obtain ⟨fr, f1, f2, f3, f4⟩ := h.frame
  have hne : ¬ fr.childOrder = [] := by rw [f3]; simp [h.nonempty]
  have hcells : s.cellFrameIds d.id = [] := by simp [Store.cellFrameIds, h.docTables]
  have hframe : s.frameHtml num [] (s.frames.keys.length + 1) f = some t := by
    unfold Store.frameHtml
    rw [f1, Option.bind_some, (h.plain fr f1).1]
    simp only
    rw [if_neg hne, f3, h.toShows.pages.childrenHtml h.positive [] _ ps (fun q hq => hq)]
    simpa using t1
  refine ⟨"<html><head><meta charset=\"utf-8\"></head><body>".toList ++ t ++ "</body></html>".toList, ?_, ?_⟩
  · unfold Store.exportHtml
    rw [h.docId, Option.bind_some]
    simp only [hcells, h.docFrames]
    simp [mapOpt, hframe]
  · have k1 : Tok ('<' :: "html".toList ++ ['>']) [.tag "html".toList] := Tok.tag _ (by decide)
    have k2 : Tok ('<' :: "head".toList ++ ['>']) [.tag "head".toList] := Tok.tag _ (by decide)
    have k3 := Tok.tagAttr "meta charset=".toList "utf-8".toList (by decide) (by decide)
    have k4 : Tok ('<' :: "/head".toList ++ ['>']) [.tag "/head".toList] := Tok.tag _ (by decide)
    have k5 : Tok ('<' :: "body".toList ++ ['>']) [.tag "body".toList] := Tok.tag _ (by decide)
    have k6 : Tok ('<' :: "/body".toList ++ ['>']) [.tag "/body".toList] := Tok.tag _ (by decide)
    have k7 : Tok ('<' :: "/html".toList ++ ['>']) [.tag "/html".toList] := Tok.tag _ (by decide)
    have hall := ((((k1.append k2).append (k3.append k4)).append k5).append t2).append (k6.append k7)
    have hx : "<html><head><meta charset=\"utf-8\"></head><body>".toList ++ t ++ "</body></html>".toList =
        '<' :: "html".toList ++ ['>'] ++ ('<' :: "head".toList ++ ['>']) ++
        ('<' :: "meta charset=".toList ++ '"' :: "utf-8".toList ++ ['"', '>'] ++ ('<' :: "/head".toList ++ ['>'])) ++
        ('<' :: "body".toList ++ ['>']) ++ t ++ ('<' :: "/body".toList ++ ['>'] ++ ('<' :: "/html".toList ++ ['>'])) := by
      simp
    unfold readHtml
    rw [hx, hall.read, Option.bind_some]
    have r1 : Runs ([.tag "html".toList] ++ [.tag "head".toList] ++
        ([.tag ("meta charset=".toList ++ '"' :: "utf-8".toList ++ ['"'])] ++ [.tag "/head".toList]) ++
        [.tag "body".toList]) ⟨[], false, []⟩ ⟨[⟨"body".toList, []⟩, ⟨"html".toList, []⟩], false, []⟩ := by
      unfold Runs; rfl
    have r2 := r1.append (t3 [])
    have r3 : Runs ([.tag "/body".toList] ++ [.tag "/html".toList])
        ⟨[⟨"body".toList, []⟩, ⟨"html".toList, []⟩], false, (exportedPage num s.lists none ps).reverse ++ []⟩
        ⟨[], false, (exportedPage num s.lists none ps).reverse ++ []⟩ := by
      unfold Runs; rfl
    have r4 := r2.append r3
    unfold Runs at r4
    rw [r4]
    simp

theorem exportedPage_texts {num : Int → List Char} {lists : Nat → Option TList} (o : Option Bool) (ps : List SPara) :
    (exportedPage num lists o ps).map (fun p => p.chars.map Prod.fst) = ps.map SPara.text := by
  have hpage : ∀ p : SPara, (pageOf num lists p).chars.map Prod.fst = p.text := by
    intro p
    unfold pageOf SPara.text
    split
    · simp [codeOf, Function.comp_def]
    · split <;> simp [listItem, bodyOf, marked, Function.comp_def]
  have hitem : ∀ n (p : SPara), (listItem n p).chars.map Prod.fst = p.text := by
    intro n p; simp [listItem, marked, SPara.text, Function.comp_def]
  induction ps generalizing o with
  | nil => rfl
  | cons p ps ih =>
    unfold exportedPage
    split <;> simp [hpage, hitem, ih]

theorem exportedPage_regular {num : Int → List Char} {lists : Nat → Option TList} (o : Option Bool) (ps : List SPara)
    (hcode : ∀ p ∈ ps, p.shape.fmtIsCodeBlock = some true → itemOf lists p = none)
    (hadj : ∀ L p q R, ps = L ++ p :: q :: R → ∀ m n, itemOf lists p = some m → itemOf lists q = some n → m = n)
    (ho : ∀ p m n, ps.head? = some p → o = some m → itemOf lists p = some n → m = n) :
    exportedPage num lists o ps = ps.map (pageOf num lists) := by
  induction ps generalizing o with
  | nil => rfl
  | cons p ps ih =>
    have hc' : ∀ q ∈ ps, q.shape.fmtIsCodeBlock = some true → itemOf lists q = none :=
      fun q hq => hcode q (by simp [hq])
    have ha' : ∀ L p q R, ps = L ++ p :: q :: R → ∀ m n, itemOf lists p = some m → itemOf lists q = some n → m = n :=
      fun L a b R e => hadj (p :: L) a b R (by simp [e])
    have hnext : ∀ m, itemOf lists p = some m → ∀ q k n, ps.head? = some q → some m = some k →
        itemOf lists q = some n → k = n := by
      intro m hm q k n hq hk hn'
      cases hk
      cases ps with
      | nil => cases hq
      | cons x xs =>
        have hxq : x = q := by simpa using hq
        exact hadj [] p x xs rfl m n hm (hxq ▸ hn')
    unfold exportedPage
    split
    · next m n' hi =>
      have := ho p m n' rfl rfl hi
      subst this
      rw [ih _ hc' ha' (hnext m hi)]
      have hnc : ¬ p.shape.fmtIsCodeBlock = some true := fun h => by
        have := hcode p (by simp) h; rw [hi] at this; cases this
      simp [pageOf, hnc, hi]
    · rw [ih _ hc' ha']
      · rfl
      · intro q m n hq hm hn'
        by_cases hcp : p.shape.fmtIsCodeBlock = some true
        · rw [if_pos hcp] at hm; cases hm
        · rw [if_neg hcp] at hm
          exact hnext m hm q m n hq rfl hn'

end Verif

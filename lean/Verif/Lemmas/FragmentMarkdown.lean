import Verif.Lemmas.ExportMarkdown
import Verif.Lemmas.Sort
import Verif.Model.FragmentMarkdown
import Verif.Spec.FragmentMarkdown
/- The Markdown of a fragment: lines, tables and the order of the parts. -/
namespace Verif
open Store

/-! ### Lines -/

theorem elementChars_eq (es : List (Segment CharFormat)) : elementChars es = es.flatMap segChs := by
  unfold elementChars
  congr 1

theorem escape_same {t : List Char} (h1 : '`' ∉ t) (h2 : '<' ∉ t) : escapeMarkdownFragment t = escapeMarkdownExport t := by
  induction t with
  | nil => rfl
  | cons c t ih =>
    simp only [List.mem_cons, not_or] at h1 h2
    have e : mdCode mdFragmentSet c = mdCode mdExportSet c := by
      unfold mdCode
      have : c ∈ mdFragmentSet ↔ c ∈ mdExportSet := by
        have a1 : c ≠ '`' := fun e => h1.1 e.symm
        have a2 : c ≠ '<' := fun e => h2.1 e.symm
        simp only [mdFragmentSet, mdExportSet, List.mem_cons, List.not_mem_nil, or_false, a1, a2, false_or]
      by_cases hc : c ∈ mdExportSet
      · rw [if_pos hc, if_pos (this.mpr hc)]
      · rw [if_neg hc, if_neg (fun h => hc (this.mp h))]
    unfold escapeMarkdownFragment escapeMarkdownExport at ih ⊢
    rw [List.flatMap_cons, List.flatMap_cons, ih h1.2 h2.2, e]

theorem frag_segment {t : List Char} {f : CharFormat} (hf : MdSingle f) (h0 : t ≠ []) (h1 : '`' ∉ t) (h2 : mdIsCode f = false → '<' ∉ t) :
    fragMdSegment (.text t f) = mdSegment (.text t f) := by
  rw [mdSegment_text f h0]
  unfold fragMdSegment mdMarks
  by_cases hc : f.fontFamily = some "monospace"
  · obtain ⟨b, i, k, l⟩ := hf.code (by simpa [mdIsCode] using hc)
    simp only [mdLook, decide_eq_false_iff_not] at b i k l
    simp [hc, b, i, k, l]
  · have hlt := h2 (by simpa [mdIsCode] using hc)
    simp only [hc, if_false, escape_same h1 hlt]
    have hs := hf.strike
    simp only [mdLook, decide_eq_true_eq, decide_eq_false_iff_not] at hs
    have hl := hf.link
    by_cases hst : f.fontStrikeout = some true
    · obtain ⟨b, i⟩ := hs hst
      cases ha : f.anchorHref with
      | none => rw [ha] at hl; simp at hl; simp [hst, b, i, hl]
      | some u => rw [ha] at hl; simp at hl; simp [hst, b, i, hl]
    · cases ha : f.anchorHref with
      | none => rw [ha] at hl; simp at hl; simp [hst, hl]
      | some u => rw [ha] at hl; simp at hl; simp [hst, hl]

theorem frag_empty {f : CharFormat} (hf : MdSingle f) (h : ¬ mdDecorated f) : fragMdSegment (.text [] f) = [] := by
  unfold mdDecorated at h
  simp only [not_or, mdIsCode, mdLook, decide_eq_true_eq] at h
  obtain ⟨a, b, c, d, e⟩ := h
  have hl : ¬ f.isAnchor = some true := fun h => hf.link.mp h (by simpa using e)
  simp [fragMdSegment, a, b, c, d, hl, escapeMarkdownFragment]

variable {es : List (Segment CharFormat)}

theorem FragLine.full_texts (h : FragLine es) : TextSegs (fullElements es) := by
  intro g hg
  obtain ⟨h1, h2⟩ := List.mem_filter.mp hg
  obtain ⟨t, f, rfl, _⟩ := h.text g h1
  exact ⟨t, f, rfl, by simpa using h2⟩

theorem FragLine.chars_full : ∀ (es : List (Segment CharFormat)), elementChars es = (fullElements es).flatMap segChs
  | [] => rfl
  | g :: es => by
    have ih := FragLine.chars_full es
    rw [elementChars_eq] at ih ⊢
    rw [List.flatMap_cons, ih]
    unfold fullElements
    rw [List.filter_cons]
    cases g with
    | image i => rfl
    | text t f =>
      by_cases h0 : t = []
      · subst h0; simp [segChs]
      · simp [h0]

theorem FragLine.inline_full (h : FragLine es) : fragMdInline es = (fullElements es).flatMap mdSegment := by
  have key : ∀ es : List (Segment CharFormat), (∀ g ∈ es, ∃ t f, g = .text t f ∧ MdSingle f ∧ (t = [] → ¬ mdDecorated f) ∧ (mdIsCode f = false → '<' ∉ t) ∧ '`' ∉ t) →
      fragMdInline es = (fullElements es).flatMap mdSegment := by
    intro es
    induction es with
    | nil => intro _; rfl
    | cons g es ih =>
      intro hg
      obtain ⟨t, f, rfl, k1, k2, k3, k4⟩ := hg g (by simp)
      have := ih fun g' hg' => hg g' (by simp [hg'])
      unfold fragMdInline fullElements at this ⊢
      rw [List.flatMap_cons, this, List.filter_cons]
      by_cases h0 : t = []
      · subst h0; simp [frag_empty k1 (k2 rfl)]
      · simp [h0, frag_segment k1 h0 k4 k3]
  apply key
  intro g hg
  obtain ⟨t, f, rfl, k1, k2, k3⟩ := h.text g hg
  refine ⟨t, f, rfl, k1, k2, k3, ?_⟩
  intro hb
  have := h.line.chars ('`', some f) (by
    rw [elementChars_eq]
    exact List.mem_flatMap.mpr ⟨_, hg, List.mem_map.mpr ⟨_, hb, rfl⟩⟩)
  exact this.1 rfl

/-- A line is read as what it should be. -/
theorem FragLine.reads (h : FragLine es) :
    ∃ q, MdReads none (fragMdInline es) q ∧ (elementChars es = [] → fragMdInline es = []) ∧
      (elementChars es ≠ [] → HeadOk (fragMdInline es) ∧ LastOk (fragMdInline es)) ∧ '\n' ∉ fragMdInline es ∧
      ∃ xs, inlineSpans {} q = xs.map some ∧ fineSpans xs = (elementChars es).map mdSpan ∧ NoRepeats {} q := by
  have h3 := h.full_texts
  have h4 : ApartSegs (fullElements es) := h.apart
  have hl := h.line
  rw [h.inline_full, FragLine.chars_full es]
  rw [FragLine.chars_full es] at hl
  generalize fullElements es = segs at *
  have hch := hl.chars
  have hhd := hl.head
  have hla := hl.last
  refine ⟨segsAs segs, ?_, ?_, ?_, ?_, ?_⟩
  · refine segs_read segs none none h3 h4 hch ?_ (fun _ => rfl) (fun _ => hhd) hla (by intro _ _ _ _ _ a ha; cases ha)
    intro L a e R he
    rw [Option.toList_none, List.nil_append] at he
    exact hl.pairs L a e R he
  · intro h0
    cases segs with
    | nil => rfl
    | cons g segs =>
      obtain ⟨t, f, rfl, ht⟩ := h3 g (by simp)
      rw [List.flatMap_cons] at h0
      simp [segChs] at h0
      exact absurd h0.1 ht
  · intro h0
    constructor
    · cases segs with
      | nil => exact absurd rfl h0
      | cons g segs =>
        obtain ⟨t, f, rfl, ht⟩ := h3 g (by simp)
        cases t with
        | nil => exact absurd rfl ht
        | cons c t =>
          obtain ⟨e, he, hw⟩ := (mdMarks_edges f (c :: t) ht).1 c rfl (hhd (c, some f) (by rw [List.flatMap_cons]; rfl))
          exact ⟨e, by rw [List.flatMap_cons, List.head?_append, he]; rfl, hw⟩
    · rcases List.eq_nil_or_concat segs with rfl | ⟨segs', g, rfl⟩
      · exact absurd rfl h0
      · obtain ⟨t, f, rfl, ht⟩ := h3 g (by simp)
        obtain ⟨c, hc⟩ : ∃ c, t.getLast? = some c := by
          cases h' : t.getLast? with
          | none => simp at h'; exact absurd h' ht
          | some e => exact ⟨e, rfl⟩
        obtain ⟨e, he, hw⟩ := (mdMarks_edges f t ht).2 c hc (hla (c, some f) (by
          rw [List.concat_eq_append, List.flatMap_append, List.getLast?_append]
          simp [segChs, hc]))
        refine ⟨e, ?_, hw⟩
        rw [List.concat_eq_append, List.flatMap_append, List.getLast?_append]
        simp [he]
  · intro hn
    obtain ⟨g, hg, hn⟩ := List.mem_flatMap.mp hn
    obtain ⟨t, f, rfl, ht⟩ := h3 g hg
    rw [mdSegment_text f ht] at hn
    have hm : ∀ c ∈ t, mdChar (c, some f) := fun c hc =>
      hch _ (List.mem_flatMap.mpr ⟨_, hg, List.mem_map.mpr ⟨c, hc, rfl⟩⟩)
    rcases mem_mdMarks hn with h | h | ⟨u, hu, h⟩
    · revert h; decide
    · exact (hm _ h).2.1 (show '\n' ∈ mdControl by decide)
    · cases t with
      | nil => exact ht rfl
      | cons c t =>
        have := List.all_eq_true.mp ((hm c (by simp)).2.2 u hu) _ h
        revert this; decide
  · exact segs_spans segs

/-! ### Groups of lines -/

theorem groups_ne_nil (ls : List (List Char)) : mdGroups ls ≠ [] := by
  cases ls with
  | nil => simp [mdGroups]
  | cons l ls =>
    unfold mdGroups
    split
    · simp
    · split <;> simp

theorem groups_cons {l : List Char} {ls g : List (List Char)} {gs : List (List (List Char))} (h : l ≠ []) (e : mdGroups ls = g :: gs) :
    mdGroups (l :: ls) = (l :: g) :: gs := by
  unfold mdGroups
  rw [if_neg h, e]

theorem groups_blank (ls rest : List (List Char)) (h : ∀ l ∈ ls, l ≠ []) : mdGroups (ls ++ [] :: rest) = ls :: mdGroups rest := by
  induction ls with
  | nil => simp [mdGroups]
  | cons l ls ih => exact groups_cons (h l (by simp)) (ih fun l' hl' => h l' (by simp [hl']))

theorem groups_one (ls : List (List Char)) (h : ∀ l ∈ ls, l ≠ []) : mdGroups ls = [ls] := by
  induction ls with
  | nil => rfl
  | cons l ls ih => exact groups_cons (h l (by simp)) (ih fun l' hl' => h l' (by simp [hl']))

/-- A part is read as these blocks. -/
def PartOk (p : List Char × Bool) (bs : List MdBlock) : Prop :=
  (p.1 = [] ∧ p.2 = false ∧ bs = []) ∨
  ((∀ l ∈ splitOnChar '\n' p.1, l ≠ []) ∧ mdChunk (splitOnChar '\n' p.1) = some bs ∧
    (p.2 = true → splitOnChar '\n' p.1 = [p.1] ∧ mdIsItem p.1 = true ∧ p.1.head? ≠ some '|' ∧ mapOpt mdLineBlock [p.1] = some bs))

theorem chunk_items {l : List Char} {g : List (List Char)} (h : ∀ x ∈ l :: g, mdIsItem x = true) (h1 : l.head? ≠ some '|') :
    mdChunk (l :: g) = mapOpt mdLineBlock (l :: g) := by
  unfold mdChunk
  simp only [if_neg h1]
  rw [if_pos (.inr h)]

theorem join_groups : ∀ (ps : List ((List Char × Bool) × List MdBlock)), (∀ x ∈ ps, PartOk x.1 x.2) → ps ≠ [] →
    ∃ g gs b1 b2, mdGroups (splitOnChar '\n' (fragMdJoin (ps.map Prod.fst))) = g :: gs ∧ mdChunk g = some b1 ∧ mapOpt mdChunk gs = some b2 ∧
      b1 ++ b2.flatten = (ps.map Prod.snd).flatten ∧
      (∀ x, ps.head? = some x → x.1.2 = true → (∀ l ∈ g, mdIsItem l = true) ∧ mapOpt mdLineBlock g = some b1)
  | [], _, h => absurd rfl h
  | [x], h, _ => by
    have hx := h x (by simp)
    show ∃ g gs b1 b2, mdGroups (splitOnChar '\n' x.1.1) = _ ∧ _
    rcases hx with ⟨e1, e2, e3⟩ | ⟨h1, h2, h3⟩
    · refine ⟨[], [[]], [], [[]], by rw [e1]; rfl, rfl, rfl, by simp [e3], ?_⟩
      intro y hy hb
      cases hy
      rw [e2] at hb; cases hb
    · refine ⟨_, [], x.2, [], groups_one _ h1, h2, rfl, by simp, ?_⟩
      intro y hy hb
      cases hy
      obtain ⟨k1, k2, _, k4⟩ := h3 hb
      rw [k1]
      exact ⟨by simpa using k2, k4⟩
  | x :: y :: ps, h, _ => by
    obtain ⟨g, gs, b1, b2, i1, i2, i3, i4, i5⟩ := join_groups (y :: ps) (fun z hz => h z (by simp [hz])) (by simp)
    have hx := h x (by simp)
    show ∃ g gs b1 b2, mdGroups (splitOnChar '\n' (x.1.1 ++ (if x.1.2 = true ∧ y.1.2 = true then ['\n'] else "\n\n".toList) ++ fragMdJoin ((y :: ps).map Prod.fst))) = _ ∧ _
    by_cases hb : x.1.2 = true ∧ y.1.2 = true
    · rw [if_pos hb]
      rcases hx with ⟨_, e2, _⟩ | ⟨h1, h2, h3⟩
      · rw [e2] at hb; cases hb.1
      · obtain ⟨k1, k2, k3, k4⟩ := h3 hb.1
        obtain ⟨j1, j2⟩ := i5 y rfl hb.2
        have hne : x.1.1 ≠ [] := h1 x.1.1 (by rw [k1]; simp)
        rw [show x.1.1 ++ ['\n'] ++ fragMdJoin ((y :: ps).map Prod.fst) = x.1.1 ++ '\n' :: fragMdJoin ((y :: ps).map Prod.fst) by simp,
          splitOnChar_snoc, k1, List.singleton_append, groups_cons hne i1]
        have hall : ∀ l ∈ x.1.1 :: g, mdIsItem l = true := by
          intro l hl
          rcases List.mem_cons.mp hl with rfl | hl
          · exact k2
          · exact j1 l hl
        have hm : mapOpt mdLineBlock (x.1.1 :: g) = some (x.2 ++ b1) := by
          simp only [mapOpt, Option.map_some, Option.bind_eq_some_iff] at k4
          obtain ⟨b, e1, e2⟩ := k4
          rw [← Option.some.inj e2]
          simp [mapOpt, e1, j2]
        refine ⟨_, _, x.2 ++ b1, b2, rfl, by rw [chunk_items hall k3, hm], i3, ?_, ?_⟩
        · rw [List.append_assoc, i4]; simp
        · intro z hz _
          exact ⟨hall, hm⟩
    · rw [if_neg hb, show x.1.1 ++ "\n\n".toList ++ fragMdJoin ((y :: ps).map Prod.fst) = x.1.1 ++ '\n' :: ('\n' :: fragMdJoin ((y :: ps).map Prod.fst)) by simp,
        splitOnChar_snoc, show splitOnChar '\n' ('\n' :: fragMdJoin ((y :: ps).map Prod.fst)) = [] :: splitOnChar '\n' (fragMdJoin ((y :: ps).map Prod.fst)) by
          rw [splitOnChar, if_pos rfl]]
      rcases hx with ⟨e1, e2, e3⟩ | ⟨h1, h2, h3⟩
      · refine ⟨[], [] :: (g :: gs), [], [] :: (b1 :: b2), ?_, rfl, ?_, ?_, ?_⟩
        · rw [e1, ← i1]
          rfl
        · simp only [mapOpt, i2, i3]; rfl
        · simpa [e3] using i4
        · intro z hz hb
          cases hz
          rw [e2] at hb; cases hb
      · refine ⟨_, g :: gs, x.2, b1 :: b2, by rw [groups_blank _ _ h1, i1], h2, ?_, by simpa using i4, ?_⟩
        · simp only [mapOpt, i2, i3]; rfl
        · intro z hz hb
          cases hz
          obtain ⟨k1, k2, _, k4⟩ := h3 hb
          rw [k1]
          exact ⟨by simpa using k2, k4⟩

theorem read_parts (ps : List ((List Char × Bool) × List MdBlock)) (h : ∀ x ∈ ps, PartOk x.1 x.2) :
    readGroups (fragMdJoin (ps.map Prod.fst)) = some ((ps.map Prod.snd).flatten.foldr mdCons []) := by
  by_cases h0 : ps = []
  · subst h0; rfl
  · obtain ⟨g, gs, b1, b2, i1, i2, i3, i4, _⟩ := join_groups ps h h0
    unfold readGroups
    rw [i1]
    simp only [mapOpt, i2, i3, Option.bind_some, Option.map_some]
    rw [← i4]
    rfl

/-! ### Paragraphs -/

/-- What a paragraph is shown as. -/
def fragShown (b : FragBlock) : List ParsedElement := if elementChars b.elements ≠ [] then [.block (mdFragBlock b)] else []

theorem chunk_line {x : List Char} {b : MdBlock} (h : mdLineBlock x = some b) (hp : x.head? ≠ some '|') (hf : "```".toList.isPrefixOf x = false) :
    mdChunk [x] = some [b] := by
  unfold mdChunk
  simp only [if_neg hp]
  rw [if_pos (.inl ⟨trivial, hf⟩)]
  simp [mapOpt, h]

theorem part_line {x : List Char} {b : MdBlock} {o : Bool} (h : mdLineBlock x = some b) (hn : '\n' ∉ x) (hp : x.head? ≠ some '|')
    (hf : "```".toList.isPrefixOf x = false) (h0 : x ≠ []) (ho : o = true → mdIsItem x = true) : PartOk (x, o) [b] := by
  refine .inr ?_
  simp only [splitOnChar_none hn]
  refine ⟨by intro l hl; simp only [List.mem_singleton] at hl; rw [hl]; exact h0, chunk_line h hp hf, fun e => ⟨trivial, ho e, hp, ?_⟩⟩
  simp only [mapOpt, h]; rfl

theorem fineAll_block {b : ParsedBlock} : ParsedElement.fineAll (.block b) = .block { b with spans := fineSpans b.spans } := rfl

theorem reads_not_pipe {x : List Char} {q : List MdInline} (h : MdReads none x q) : x.head? ≠ some '|' := by
  intro e
  cases x with
  | nil => cases e
  | cons c x =>
    cases e
    unfold MdReads mdInline at h
    rw [if_neg (by decide), if_neg (by decide), if_neg (by decide), if_neg (by decide), if_neg (by decide), if_pos (by decide)] at h
    cases h

theorem digits_of (k : Nat) : (∀ c ∈ (toString k).toList, c.isDigit = true) ∧ (toString k).toList ≠ [] := by
  rw [Nat.toString_eq_repr, Nat.toList_repr]
  exact ⟨fun c hc => Nat.isDigit_of_mem_toDigits (by omega) (by omega) hc, Nat.toDigits_ne_nil⟩

theorem part_number {ds x : List Char} (h : ∀ c ∈ ds, c.isDigit = true) (h0 : ds ≠ []) : mdIsItem (ds ++ ". ".toList ++ x) = true := by
  have e : (ds ++ ". ".toList ++ x).takeWhile Char.isDigit = ds := by
    rw [List.append_assoc, List.takeWhile_append_of_pos h]
    have : Char.isDigit '.' = false := by decide
    simp [this]
  unfold mdIsItem
  simp only [e]
  have : (ds ++ ". ".toList ++ x).drop ds.length = ". ".toList ++ x := by simp
  rw [this]
  simp [h0, List.isPrefixOf]

theorem digits_line {ds x : List Char} (h : ∀ c ∈ ds, c.isDigit = true) (h0 : ds ≠ []) : (ds ++ x).head? ≠ some '|' ∧
    "```".toList.isPrefixOf (ds ++ x) = false ∧ ds ++ x ≠ [] := by
  cases ds with
  | nil => exact absurd rfl h0
  | cons c ds =>
    have hc := h c (by simp)
    refine ⟨?_, ?_, by simp⟩
    · intro e; cases e; revert hc; decide
    · have : c ≠ '`' := by rintro rfl; revert hc; decide
      have : ('`' == c) = false := by simp; exact fun e => this e.symm
      simp [List.isPrefixOf, this]

/-- A paragraph: its part, the number of the last item behind it. -/
theorem FragFit.part {b : FragBlock} (h : FragFit b) (x : FragMd) (hx : x.counter + 1 < 10 ^ 9) :
    ∃ (p : List Char × Bool) (bs : List MdBlock), (x.block b).parts = x.parts ++ [p] ∧ (x.block b).counter ≤ x.counter + 1 ∧ PartOk p bs ∧ (∀ m ∈ bs, m.Good) ∧
      (bs.flatMap (MdBlock.elements 0 [])).map ParsedElement.fineAll = fragShown b := by
  obtain ⟨q, t2, t3, t4, t5, xs, t6, t7, t8⟩ := h.line.reads
  have hlines : linesOf q = [xs] := by unfold linesOf; rw [t6, breakLines_some]
  have hspans : spansOf q = xs := by unfold spansOf; rw [t6]; simp
  have hnb : NoBreak q := by unfold NoBreak; rw [t6]; simp
  have hind : fragMdIndent b.format = [] := by
    have := h.indent
    unfold fragMdIndent
    cases hi : b.format.fmtIndent with
    | none => rfl
    | some n =>
      rw [hi] at this
      simp only [Option.getD_some] at this
      show (if n > 0 then _ else _) = _
      rw [if_neg (by omega)]
  unfold FragMd.block
  simp only [hind, List.nil_append]
  generalize fragMdInline b.elements = t at *
  cases hh : b.format.fmtHeadingLevel with
  | some n =>
    have h0 := h.full (.inl (by rw [hh]; simp))
    obtain ⟨e1, e2⟩ := t4 h0
    have n1 : 1 ≤ (max 1 (min 6 n)).toNat := by omega
    have n2 : (max 1 (min 6 n)).toNat ≤ 6 := by omega
    have hl := heading_line t2 e1 e2 n1 n2
    have hz : (((max 1 (min 6 n)).toNat : Nat) : Int) = max 1 (min 6 n) := by omega
    obtain ⟨m, hm⟩ : ∃ m, (max 1 (min 6 n)).toNat = m + 1 := ⟨(max 1 (min 6 n)).toNat - 1, by omega⟩
    have hnn : '\n' ∉ List.replicate (max 1 (min 6 n)).toNat '#' ++ ' ' :: t := by
      simp only [List.mem_append, List.mem_replicate, List.mem_cons, not_or]
      exact ⟨fun e => by have := e.2; revert this; decide, by decide, t5⟩
    refine ⟨_, [.heading (max 1 (min 6 n)).toNat q], rfl, Nat.zero_le _, part_line hl hnn ?_ ?_ (by simp) (by intro e; cases e), ?_, ?_⟩
    · rw [hm, List.replicate_succ]; intro e; exact absurd (Option.some.inj e) (by decide)
    · rw [hm, List.replicate_succ]; rfl
    · intro b hb; simp at hb; rw [hb]; exact ⟨t8, hnb⟩
    · unfold fragShown mdFragBlock
      rw [if_pos h0, hh]
      simp only [List.flatMap_cons, List.flatMap_nil, List.append_nil, MdBlock.elements, List.map_cons, List.map_nil, fineAll_block, hspans, t7, hz]
      rfl
  | none =>
    cases hl : b.list with
    | some l =>
      have h0 := h.full (.inr (by rw [hl]; simp))
      obtain ⟨e1, e2⟩ := t4 h0
      have hels : ∀ o, numbered l.style = o → (([MdBlock.list o [.loose q []]]).flatMap (MdBlock.elements 0 [])).map ParsedElement.fineAll = fragShown b := by
        intro o ho
        unfold fragShown mdFragBlock
        rw [if_pos h0, hh, hl]
        simp only [List.flatMap_cons, List.flatMap_nil, List.append_nil, MdBlock.elements, itemElements, MdItem.elements, blockElements,
          List.map_cons, List.map_nil, hlines, fineAll_block, t7, Option.map_some, ho]
        rfl
      have hgood : ∀ o, ∀ m ∈ [MdBlock.list o [.loose q []]], m.Good := by
        intro o b hb; simp at hb; rw [hb]
        exact ⟨⟨t8, trivial⟩, trivial⟩
      simp only
      cases ho : numbered l.style with
      | true =>
        rw [if_pos (by rw [numbered_eq, ho])]
        generalize hk : (if x.wasList = true then x.counter else 0) + 1 = k
        have hk' : k ≤ x.counter + 1 := by rw [← hk]; split <;> omega
        have hline := item_line (o := true) (n := k) t2 e1 e2 (by omega)
        rw [if_pos rfl] at hline
        obtain ⟨d1, d2⟩ := digits_of k
        have hnn : '\n' ∉ (toString k).toList ++ ". ".toList ++ t := by
          intro hm
          simp only [List.mem_append] at hm
          rcases hm with (hm | hm) | hm
          · have := d1 _ hm; revert this; decide
          · revert hm; decide
          · exact t5 hm
        obtain ⟨a1, a2, a3⟩ := digits_line (x := ". ".toList ++ t) d1 d2
        rw [← List.append_assoc] at a1 a2 a3
        exact ⟨_, [.list true [.loose q []]], rfl, hk', part_line hline hnn a1 a2 a3 (fun _ => part_number d1 d2), hgood true, hels true ho⟩
      | false =>
        rw [if_neg (by rw [numbered_eq, ho]; simp)]
        have hline := item_line (o := false) (n := 0) t2 e1 e2 (by omega)
        rw [if_neg (by simp)] at hline
        have hnn : '\n' ∉ "- ".toList ++ t := by
          intro hm
          simp at hm
          exact t5 hm
        have ha : ("- ".toList ++ t).head? ≠ some '|' := fun e => absurd (Option.some.inj e) (by decide)
        refine ⟨_, [.list false [.loose q []]], rfl, ?_, part_line hline hnn ha rfl (by simp) (fun _ => by simp [mdIsItem, List.isPrefixOf]), hgood false, hels false ho⟩
        show (if x.wasList = true then x.counter else 0) ≤ _
        split <;> omega
    | none =>
      simp only
      by_cases h0 : elementChars b.elements = []
      · rw [t3 h0]
        refine ⟨_, [], rfl, Nat.zero_le _, .inl ⟨rfl, rfl, rfl⟩, by simp, ?_⟩
        unfold fragShown
        rw [if_neg (by simp [h0])]
        rfl
      · obtain ⟨e1, e2⟩ := t4 h0
        obtain ⟨l1, l2, l3⟩ := para_line t2 e1 e2
        refine ⟨_, [.para q], rfl, Nat.zero_le _, part_line l1 t5 (reads_not_pipe t2) l3 l2 (by intro e; cases e), ?_, ?_⟩
        · intro b hb; simp at hb; rw [hb]; exact t8
        · unfold fragShown mdFragBlock
          rw [if_pos h0, hh, hl]
          simp only [List.flatMap_cons, List.flatMap_nil, List.append_nil, MdBlock.elements, List.map_cons, List.map_nil, hlines, fineAll_block, t7]
          rfl

end Verif

import Verif.Lemmas.ExportMarkdown
import Verif.Props.Markdown
import Verif.Model.ListCommands
import Verif.Model.Formatting
/-
C79: Markdown export.  The text is read back by the small Markdown reader of Spec/MarkdownText.lean, and then loaded again by the
importer of C75 and C76.
-/
namespace Verif

variable {s : Store} {d : Document} {f : Nat} {ps : List SPara}

/-- **C79.** `to_markdown` gives a text that a Markdown reader reads, and it shows the paragraphs of the document in order, but for the
empty ones: code blocks with their language, list items, headings and paragraphs, every character with its marks and link, no matter
which special characters the text has.  Full statement: the same of every document; it is false (the `_fails` theorems below). -/
theorem C79_markdown_partial (h : Flat s d f ps) (hfit : ∀ p ∈ ps, MdFit s.lists p) (hn : ps.length < 10 ^ 9) :
    ∃ t bs, s.exportMarkdown = some t ∧ readMarkdown t = some bs ∧ GoodBlocks bs ∧
      (blockElements 0 [] bs).map ParsedElement.fine = (ps.filter mdShown).map fun p => .block (mdBlockOf s.lists p) :=
  h.exportMarkdown hfit hn

/-! ### Back again -/

/-- A span for every character. -/
def ParsedBlock.fine (b : ParsedBlock) : ParsedBlock :=
  { b with listIndent := if b.listStyle.isSome then b.listIndent else 0, spans := fineSpans b.spans }

theorem spansChars_fine (code : Bool) (xs : List ParsedSpan) : spansChars code (fineSpans xs) = spansChars code xs := by
  unfold spansChars fineSpans
  rw [List.flatMap_assoc]
  congr 1
  funext x
  rw [List.flatMap_map]
  show (x.text.flatMap fun c => styled [c] (spanLook code x)) = _
  unfold styled
  induction x.text with
  | nil => rfl
  | cons c t ih => rw [List.flatMap_cons, ih]; rfl

theorem lists_fine (es : List ParsedElement) : ∀ (past : Imported) (n k : Nat), listsOf past n k (es.map ParsedElement.fine) = listsOf past n k es := by
  induction es with
  | nil => intro _ _ _; rfl
  | cons e es ih =>
    intro past n k
    cases e with
    | table r => simp [listsOf, ParsedElement.fine, ih]
    | block b => simp [listsOf, ParsedElement.fine, ih, listChoice, pastAfter, pastQuote]

theorem blocks_of_fine : ∀ (es : List ParsedElement) (K : List ParsedBlock),
    (es.map ParsedElement.core).map ParsedElement.fine = K.map .block → ∃ L : List ParsedBlock, es = L.map .block ∧ L.map ParsedBlock.fine = K
  | [], [], _ => ⟨[], rfl, rfl⟩
  | [], _ :: _, h => by simp at h
  | _ :: _, [], h => by simp at h
  | e :: es, k :: K, h => by
    simp only [List.map_cons, List.cons.injEq] at h
    obtain ⟨L, e1, e2⟩ := blocks_of_fine es K h.2
    cases e with
    | table r => simp [ParsedElement.core, ParsedElement.fine] at h
    | block b =>
      refine ⟨b :: L, by rw [e1]; rfl, ?_⟩
      rw [List.map_cons, e2]
      congr 1
      have := h.1
      simp only [ParsedElement.core, ParsedElement.fine, ParsedElement.block.injEq] at this
      exact this

/-- What comes back of a paragraph: its characters with the formats Markdown can say. -/
def mdBackChars (lists : Nat → Option TList) (p : SPara) : List SChar :=
  spansChars (mdBlockOf lists p).isCodeBlock (mdBlockOf lists p).spans

/-- `set_markdown` of the exported text, into any document: the paragraphs come back, with the marks, the heading levels, the code blocks
and the lists that Markdown can say, in a document that is in order.  Items that follow each other join one list if they are of the same
kind. -/
theorem C79_roundtrip_partial (h : Flat s d f ps) (hfit : ∀ p ∈ ps, MdFit s.lists p) (hn : ps.length < 10 ^ 9) (hsome : ∃ p ∈ ps, mdShown p = true)
    {s2 : Store} {d2 : Document} {f2 : Nat} {ps2 : List SPara} (h2 : Ready s2 d2 f2 ps2) :
    ∃ t bs s' d' qs, s.exportMarkdown = some t ∧ readMarkdown t = some bs ∧
      s2.importElements false (parseMarkdown (blockEvents bs)) = some ((qs.length : Int), s') ∧ SameDoc d2 d' ∧
      Ready s' d' (s2.next "frame") qs ∧ Counted d' qs ∧
      qs.map SPara.face = (((ps.filter mdShown).map (mdBlockOf s.lists)).zip
          (listsOf [] 0 (s2.next "list") (((ps.filter mdShown).map (mdBlockOf s.lists)).map .block))).map
        (fun x => (spansChars x.1.isCodeBlock x.1.spans, parsedShape false x.1 x.2)) := by
  obtain ⟨t, bs, t1, t2, t3, t4⟩ := h.exportMarkdown hfit hn
  generalize hK : (ps.filter mdShown).map (mdBlockOf s.lists) = K
  have hK' : ((ps.filter mdShown).map fun p => ParsedElement.block (mdBlockOf s.lists p)) = K.map .block := by
    rw [← hK, List.map_map]; rfl
  have hKne : K ≠ [] := by
    obtain ⟨p, hp, hs⟩ := hsome
    rw [← hK]
    intro e
    have := List.map_eq_nil_iff.mp e
    have hm : p ∈ ps.filter mdShown := List.mem_filter.mpr ⟨hp, hs⟩
    rw [this] at hm; cases hm
  rw [hK'] at t4
  have hde : documentElements bs = blockElements 0 [] bs := by
    unfold documentElements
    rw [if_neg]
    intro e
    rw [e] at t4
    cases K with
    | nil => exact hKne rfl
    | cons k K => simp at t4
  have hpm := C76_parse bs t3
  rw [hde] at hpm
  obtain ⟨L, e1, e2⟩ := blocks_of_fine (parseMarkdown (blockEvents bs)) K (by rw [hpm, t4])
  have hq : ∀ b ∈ L, b.quoteDepth = 0 := by
    intro b hb
    have hm : b.fine ∈ K := by rw [← e2]; exact List.mem_map.mpr ⟨b, hb, rfl⟩
    rw [← hK] at hm
    obtain ⟨p, _, hp⟩ := List.mem_map.mp hm
    have : (mdBlockOf s.lists p).quoteDepth = b.fine.quoteDepth := by rw [hp]
    have e : b.fine.quoteDepth = b.quoteDepth := rfl
    rw [← e, ← this]
    unfold mdBlockOf
    split <;> rfl
  have hL : L ≠ [] := by
    rintro rfl
    exact hKne e2.symm
  obtain ⟨s', d', qs, q1, q2, q3, q4, q5⟩ := C75_import_flat h2 false L hL hq
  refine ⟨t, bs, s', d', qs, t1, t2, by rw [e1]; exact q1, q2, q3, q4, ?_⟩
  rw [q5]
  have hls : listsOf [] 0 (s2.next "list") (L.map .block) = listsOf [] 0 (s2.next "list") (K.map .block) := by
    rw [← e1, ← lists_core, ← lists_fine, hpm, t4]
  rw [hls, ← e2]
  generalize listsOf [] 0 (s2.next "list") ((L.map ParsedBlock.fine).map ParsedElement.block) = ls
  rw [List.zip_map_left, List.map_map]
  congr 1
  funext x
  show _ = (spansChars x.1.isCodeBlock (fineSpans x.1.spans), parsedShape false x.1.fine x.2)
  rw [spansChars_fine]
  rfl

/-- A paragraph that has only what Markdown can say, and is not empty. -/
structure MdPlain (lists : Nat → Option TList) (p : SPara) : Prop where
  shown : mdShown p = true
  chars : ∀ c ∈ p.chars, c.2 = if p.shape.fmtIsCodeBlock = some true then some { fontFamily := some "monospace" } else spanLook false (mdSpan c)
  shape : p.shape = { list := p.shape.list, fmtHeadingLevel := p.shape.fmtHeadingLevel, fmtIsCodeBlock := p.shape.fmtIsCodeBlock
                      fmtCodeLanguage := p.shape.fmtCodeLanguage }
  code : p.shape.fmtIsCodeBlock = some true → p.shape.fmtHeadingLevel = none ∧ p.shape.fmtCodeLanguage ≠ some "" ∧ p.shape.list = none
  text : p.shape.fmtIsCodeBlock ≠ some true → p.shape.fmtIsCodeBlock = none ∧ p.shape.fmtCodeLanguage = none
  list : ∀ l, p.shape.list = some l → (lists l).isSome

/-- A document of such paragraphs comes back the same: the same characters, formats, headings, code blocks and list items. -/
theorem C79_same_partial (h : Flat s d f ps) (hfit : ∀ p ∈ ps, MdFit s.lists p) (hn : ps.length < 10 ^ 9) (hplain : ∀ p ∈ ps, MdPlain s.lists p)
    {s2 : Store} {d2 : Document} {f2 : Nat} {ps2 : List SPara} (h2 : Ready s2 d2 f2 ps2) :
    ∃ t bs s' d' qs, s.exportMarkdown = some t ∧ readMarkdown t = some bs ∧
      s2.importElements false (parseMarkdown (blockEvents bs)) = some ((qs.length : Int), s') ∧
      Ready s' d' (s2.next "frame") qs ∧ Counted d' qs ∧
      qs.map (fun q => (q.chars, { q.shape with list := none })) = ps.map (fun p => (p.chars, { p.shape with list := none })) ∧
      qs.map (fun q => q.shape.list.isSome) = ps.map (fun p => p.shape.list.isSome) := by
  have hfil : ps.filter mdShown = ps := List.filter_eq_self.mpr fun p hp => (hplain p hp).shown
  obtain ⟨p0, hp0⟩ := List.exists_mem_of_ne_nil ps h.nonempty
  obtain ⟨t, bs, s', d', qs, e1, e2, e3, _, e4, e5, e6⟩ := C79_roundtrip_partial h hfit hn ⟨p0, hp0, (hplain p0 hp0).shown⟩ h2
  refine ⟨t, bs, s', d', qs, e1, e2, e3, e4, e5, ?_⟩
  rw [hfil] at e6
  have hlen : ∀ (past : Imported) (dep fr : Nat) (es : List ParsedElement), (listsOf past dep fr es).length = es.length := by
    intro past dep fr es
    induction es generalizing past dep fr with
    | nil => rfl
    | cons e es ih => cases e <;> simp [listsOf, ih]
  have hsome : ∀ (K : List ParsedBlock) (past : Imported) (dep fr : Nat), (listsOf past dep fr (K.map .block)).map Option.isSome = K.map fun b => b.listStyle.isSome := by
    intro K
    induction K with
    | nil => intro _ _ _; rfl
    | cons b K ih =>
      intro past dep fr
      simp only [List.map_cons, listsOf, ih]
      congr 1
      unfold listChoice
      cases b.listStyle <;> rfl
  have hback : ∀ p ∈ ps, ∀ l, (spansChars (mdBlockOf s.lists p).isCodeBlock (mdBlockOf s.lists p).spans, { parsedShape false (mdBlockOf s.lists p) l with list := none }) =
      (p.chars, { p.shape with list := none }) := by
    intro p hp l
    have hpl := hplain p hp
    have hsh := hpl.shape
    by_cases hc : p.shape.fmtIsCodeBlock = some true
    · obtain ⟨c1, c2, c3⟩ := hpl.code hc
      have hch : spansChars (mdBlockOf s.lists p).isCodeBlock (mdBlockOf s.lists p).spans = p.chars := by
        unfold mdBlockOf
        rw [if_pos hc]
        unfold spansChars
        rw [List.flatMap_map]
        show (p.text.flatMap fun c => [(c, some { fontFamily := some "monospace" })]) = p.chars
        unfold SPara.text
        rw [List.flatMap_map]
        have := hpl.chars
        simp only [if_pos hc] at this
        clear hp
        generalize p.chars = cs at this
        induction cs with
        | nil => rfl
        | cons c cs ih =>
          rw [List.flatMap_cons, ih fun c' hc' => this c' (by simp [hc'])]
          have := this c (by simp)
          show (c.1, _) :: cs = c :: cs
          rw [← this]
      rw [hch]
      congr 1
      rw [hsh]
      unfold mdBlockOf
      rw [if_pos hc, c1, hc]
      unfold parsedShape
      have : (p.shape.fmtCodeLanguage.bind fun l => if l = "" then none else some l) = p.shape.fmtCodeLanguage := by
        cases hl : p.shape.fmtCodeLanguage with
        | none => rfl
        | some l => rw [Option.bind_some, if_neg (by rintro rfl; exact c2 hl)]
      simp [this]
    · obtain ⟨c1, c2⟩ := hpl.text hc
      have hch : spansChars (mdBlockOf s.lists p).isCodeBlock (mdBlockOf s.lists p).spans = p.chars := by
        unfold mdBlockOf
        rw [if_neg hc]
        unfold spansChars
        rw [List.flatMap_map]
        have := hpl.chars
        simp only [if_neg hc] at this
        clear hp
        generalize p.chars = cs at this
        induction cs with
        | nil => rfl
        | cons c cs ih =>
          rw [List.flatMap_cons, ih fun c' hc' => this c' (by simp [hc'])]
          have := this c (by simp)
          show (c.1, _) :: cs = c :: cs
          rw [← this]
      rw [hch]
      congr 1
      rw [hsh]
      unfold mdBlockOf
      rw [if_neg hc, c1, c2]
      simp [parsedShape]
  have hitem : ∀ p ∈ ps, (mdBlockOf s.lists p).listStyle.isSome = p.shape.list.isSome := by
    intro p hp
    have hpl := hplain p hp
    by_cases hc : p.shape.fmtIsCodeBlock = some true
    · unfold mdBlockOf
      rw [if_pos hc, (hpl.code hc).2.2]
      rfl
    · unfold mdBlockOf itemOf
      rw [if_neg hc]
      cases hl : p.shape.list with
      | none => rfl
      | some l =>
        have := hpl.list l hl
        simp [Option.isSome_map, this]
  generalize hls : listsOf [] 0 (s2.next "list") ((ps.map (mdBlockOf s.lists)).map .block) = ls at e6
  have hll : ls.length = ps.length := by rw [← hls, hlen]; simp
  have hli : ls.map Option.isSome = ps.map fun p => p.shape.list.isSome := by
    rw [← hls, hsome, List.map_map]
    apply List.map_congr_left
    intro p hp
    exact hitem p hp
  have hface : qs.map (fun q => (q.chars, { q.shape with list := none })) = (qs.map SPara.face).map fun x => (x.1, { x.2 with list := none }) := by
    rw [List.map_map]; rfl
  have hface2 : qs.map (fun q => q.shape.list.isSome) = (qs.map SPara.face).map fun x => x.2.list.isSome := by
    rw [List.map_map]; rfl
  rw [hface, hface2, e6, ← hli]
  clear e6 hface hface2 hli hls e4 hfit hplain h hfil hn hp0 e1 e2 e3 e5
  rw [List.zip_map_left]
  simp only [List.map_map]
  induction ps generalizing ls with
  | nil =>
    have := List.eq_nil_of_length_eq_zero hll
    rw [this]; exact ⟨rfl, rfl⟩
  | cons p ps ih =>
    cases ls with
    | nil => simp at hll
    | cons l ls =>
      obtain ⟨i1, i2⟩ := ih (fun p' hp' => hback p' (by simp [hp'])) (fun p' hp' => hitem p' (by simp [hp'])) ls (by simpa using hll)
      refine ⟨?_, ?_⟩
      · simp only [List.zip_cons_cons, List.map_cons, i1]
        congr 1
        exact hback p (by simp) l
      · simp only [List.zip_cons_cons, List.map_cons, i2]
        rfl

/-! ### The hypotheses can be met -/

/-- Text without formats fits, if it has no backtick, `<`, `&`, nor spaces at its ends. -/
theorem plain_line {t : List Char} (h1 : ∀ c ∈ t, c ≠ '`' ∧ c ∉ mdControl ∧ c ≠ '<' ∧ c ≠ '&')
    (h2 : ∀ c, t.head? = some c → isWhite c = false) (h3 : ∀ c, t.getLast? = some c → isWhite c = false) :
    MdLine (t.map fun c => (c, none)) := by
  refine ⟨?_, ?_, ?_, ?_⟩
  · intro c hc
    obtain ⟨e, he, rfl⟩ := List.mem_map.mp hc
    exact ⟨(h1 e he).1, (h1 e he).2.1, by intro u hu; cases hu⟩
  · intro L a b R e
    have ha : a ∈ t.map fun c => ((c, none) : SChar) := by rw [e]; simp
    have hb : b ∈ t.map fun c => ((c, none) : SChar) := by rw [e]; simp
    obtain ⟨x, hx, rfl⟩ := List.mem_map.mp ha
    obtain ⟨y, hy, rfl⟩ := List.mem_map.mp hb
    refine ⟨fun h => absurd rfl h, fun _ h => ?_⟩
    rcases h with h | h
    · exact absurd h (h1 x hx).2.2.1
    · exact absurd h (h1 x hx).2.2.2
  · intro c hc
    rw [List.head?_map] at hc
    obtain ⟨e, he, rfl⟩ := Option.map_eq_some_iff.mp hc
    exact h2 e he
  · intro c hc
    rw [List.getLast?_map] at hc
    obtain ⟨e, he, rfl⟩ := Option.map_eq_some_iff.mp hc
    exact h3 e he

theorem sample_fits (s : Store) : ∀ p ∈ [plainPara 2 ['a', 'b'], plainPara 3 ['c', 'd']], MdFit s.lists p := by
  intro p hp
  simp only [List.mem_cons, List.not_mem_nil, or_false] at hp
  rcases hp with rfl | rfl
  · refine ⟨(by intro h; cases h), fun _ => ?_, (by intro _ n h; cases h), (by intro _ l h; cases h)⟩
    exact plain_line (t := ['a', 'b']) (by decide) (by intro c h; cases h; decide) (by intro c h; cases h; decide)
  · refine ⟨(by intro h; cases h), fun _ => ?_, (by intro _ n h; cases h), (by intro _ l h; cases h)⟩
    exact plain_line (t := ['c', 'd']) (by decide) (by intro c h; cases h; decide) (by intro c h; cases h; decide)

/-- A loaded text meets the hypotheses of all three theorems, with a new document to load it into. -/
example : ∃ (s s2 s' : Store) (d d' : Document) (t : List Char) (bs : List MdBlock) (qs : List SPara),
    Flat s d 2 [plainPara 2 ['a', 'b'], plainPara 3 ['c', 'd']] ∧ Store.newStore = some s2 ∧ s.exportMarkdown = some t ∧ readMarkdown t = some bs ∧
    s2.importElements false (parseMarkdown (blockEvents bs)) = some ((qs.length : Int), s') ∧ Ready s' d' (s2.next "frame") qs ∧
    qs.map SPara.text = [['a', 'b'], ['c', 'd']] := by
  obtain ⟨s, h1, _⟩ := sample_flat
  obtain ⟨s2, k1, k2⟩ := C75_new_ready
  obtain ⟨t, bs, s', d', qs, e1, e2, e3, e4, _, e6, _⟩ := C79_same_partial h1 (sample_fits s) (by decide) (by
    intro p hp
    simp only [List.mem_cons, List.not_mem_nil, or_false] at hp
    rcases hp with rfl | rfl
    · exact ⟨by decide, by decide +kernel, rfl, (by intro h; cases h), (by intro _; exact ⟨rfl, rfl⟩), (by intro l h; cases h)⟩
    · exact ⟨by decide, by decide +kernel, rfl, (by intro h; cases h), (by intro _; exact ⟨rfl, rfl⟩), (by intro l h; cases h)⟩) k2
  refine ⟨s, s2, s', _, d', t, bs, qs, h1, k1, e1, e2, e3, e4, ?_⟩
  have := congrArg (List.map fun x : List SChar × Block => x.1.map Prod.fst) e6
  rw [List.map_map, List.map_map] at this
  exact this

/-- A document from parsed Markdown. -/
def loadedMarkdown (es : List ParsedElement) : Option Store := Store.newStore.bind fun s => (s.importElements false es).map fun r => r.2

/-- What is read of the export of a document. -/
def readBack (s : Store) : Option (List ParsedElement) :=
  s.exportMarkdown.bind fun t => (readMarkdown t).map fun bs => (blockElements 0 [] bs).map ParsedElement.fine

/-- Headings, marks, links, code and lists are all exported and read back, with every special character. -/
def exportSample : List ParsedBlock :=
  [{ spans := "# h_1*".toList.map fun c => { text := [c] }, headingLevel := some 2 },
   { spans := ("1. [x] ".toList.map fun c => { text := [c] }) ++ ("b~c".toList.map fun c => { text := [c], bold := true, italic := true, linkHref := some "u*v" }) ++
       (", - ".toList.map fun c => { text := [c] }) ++ ("*d".toList.map fun c => { text := [c], code := true }) ++
       (" ".toList.map fun c => { text := [c] }) ++ ("e\\".toList.map fun c => { text := [c], strikeout := true }) },
   { spans := "x".toList.map fun c => { text := [c] }, listStyle := some .disc },
   { spans := "- y".toList.map fun c => { text := [c] }, listStyle := some .disc },
   { spans := "z".toList.map fun c => { text := [c] }, listStyle := some .decimal },
   { spans := "w.".toList.map fun c => { text := [c] }, listStyle := some .decimal },
   { spans := "# `i`\n\n*j*".toList.map fun c => { text := [c], code := true }, isCodeBlock := true, codeLanguage := some "rs" }]

example : ((loadedMarkdown (exportSample.map .block)).bind readBack) = some (exportSample.map .block) := by decide +kernel

/-! ### Where it is false -/

/-- Backticks are not escaped: text between two becomes code. -/
theorem C79_backtick_fails : ∃ (s : Store) (t : List Char),
    (Store.newStore.bind fun s => s.importPlainText "a`b`c".toList) = some s ∧ s.exportMarkdown = some t ∧ t = "a`b`c".toList ∧
    readBack s = some [.block { spans := [{ text := ['a'] }, { text := ['b'], code := true }, { text := ['c'] }] }] := by
  refine ⟨_, _, rfl, rfl, ?_, ?_⟩ <;> decide +kernel

/-- Character references and tags at the beginning of a line are not escaped: `&amp;` is read as `&`, `<div` begins a block of HTML. -/
theorem C79_html_fails : ∃ (s : Store) (t : List Char),
    (Store.newStore.bind fun s => s.importPlainText "&amp;\n<div x".toList) = some s ∧ s.exportMarkdown = some t ∧
    t = "&amp;\n\n\n\n\n\n<div x".toList ∧ readMarkdown t = none := by
  refine ⟨_, _, rfl, rfl, ?_, ?_⟩ <;> decide +kernel

/-- Empty paragraphs are gone, and so are spaces at the beginning of a line for every reader. -/
theorem C79_empty_fails : ∃ (s : Store) (t : List Char),
    (Store.newStore.bind fun s => s.importPlainText "a\n\n\n  b".toList) = some s ∧ s.exportMarkdown = some t ∧
    readMarkdown t = none ∧
    (Store.newStore.bind fun s => s.importPlainText "a\n\n\nb".toList).bind readBack =
      some [.block { spans := [{ text := ['a'] }] }, .block { spans := [{ text := ['b'] }] }] := by
  refine ⟨_, _, rfl, rfl, ?_, ?_⟩ <;> decide +kernel

/-- Marks that are none: bold text that begins with punctuation after a letter, bold text that ends with a space, and bold text before
bold italic text. -/
theorem C79_marks_fails : ∃ (s1 s2 s3 : Store) (t1 t2 t3 : List Char),
    loadedMarkdown [.block { spans := [{ text := ['a'] }, { text := ['!', 'b'], bold := true }] }] = some s1 ∧
    loadedMarkdown [.block { spans := [{ text := ['a', ' '], bold := true }, { text := ['b'] }] }] = some s2 ∧
    loadedMarkdown [.block { spans := [{ text := ['a'], bold := true }, { text := ['b'], bold := true, italic := true }] }] = some s3 ∧
    s1.exportMarkdown = some t1 ∧ s2.exportMarkdown = some t2 ∧ s3.exportMarkdown = some t3 ∧
    t1 = "a**\\!b**".toList ∧ t2 = "**a **b".toList ∧ t3 = "**a*****b***".toList ∧
    readMarkdown t1 = none ∧ readMarkdown t2 = none ∧ readMarkdown t3 = none := by
  refine ⟨_, _, _, _, _, _, rfl, rfl, rfl, rfl, rfl, rfl, ?_⟩; decide +kernel

/-- A link destination is written as it is: it ends at its first parenthesis. -/
theorem C79_link_fails : ∃ (s : Store) (t : List Char),
    loadedMarkdown [.block { spans := [{ text := ['a'], linkHref := some "x)y" }] }] = some s ∧
    s.exportMarkdown = some t ∧ t = "[a](x)y)".toList ∧ readBack s = none := by
  refine ⟨_, _, rfl, rfl, ?_, ?_⟩ <;> decide +kernel

/-- Underlining is lost. -/
theorem C79_underline_fails : ∃ s : Store,
    (Store.newStore.bind fun s => (s.importElements true [.block { spans := [{ text := ['a'], underline := true }] }]).map fun r => r.2) = some s ∧
    readBack s = some [.block { spans := [{ text := ['a'] }] }] := by
  refine ⟨_, rfl, ?_⟩; decide +kernel

/-- A list with letters becomes a list with numbers; a heading that is a list item is no item any more; two lists become one. -/
theorem C79_lists_fails : ∃ (s s1 s2 s3 : Store) (d : Document),
    (Store.newStore.bind fun s => s.importPlainText "a\nb".toList) = some s ∧
    (s.createList .lowerAlpha 0 0).map (fun r => r.1) = some s1 ∧
    (s1.createList .upperRoman 2 2).map (fun r => r.1) = some s2 ∧ s2.documents 1 = some d ∧ d.lists.length = 2 ∧
    readBack s2 = some [.block { spans := [{ text := ['a'] }], listStyle := some .decimal }, .block { spans := [{ text := ['b'] }], listStyle := some .decimal }] ∧
    (s2.setBlockFormat { headingLevel := some 1 } 0 0).map (fun r => r.1) = some s3 ∧
    readBack s3 = some [.block { spans := [{ text := ['a'] }], headingLevel := some 1 }, .block { spans := [{ text := ['b'] }], listStyle := some .decimal }] := by
  refine ⟨_, _, _, _, _, rfl, rfl, rfl, rfl, rfl, ?_, rfl, ?_⟩ <;> decide +kernel

/-- Code that has the end of a code block in it: what follows is no code. -/
theorem C79_code_fails : ∃ s : Store,
    loadedMarkdown [.block { spans := [{ text := "a\n```\n\nb\n\n```\nc".toList, code := true }], isCodeBlock := true }] = some s ∧
    readBack s = some [.block { spans := [{ text := ['a'], code := true }], isCodeBlock := true }, .block { spans := [{ text := ['b'] }] },
      .block { spans := [{ text := ['c'], code := true }], isCodeBlock := true }] := by
  refine ⟨_, rfl, ?_⟩; decide +kernel

/-- A quotation is exported twice: with the frame it stands in, and as a frame of the document, where it is no quotation. -/
theorem C79_quote_fails : ∃ (s : Store) (t : List Char),
    loadedMarkdown [.block { spans := [{ text := ['a'] }] }, .block { spans := [{ text := ['q'] }], quoteDepth := 1 }] = some s ∧
    s.exportMarkdown = some t ∧ t = "a\n\n\n\n\n\n> q\n\nq".toList := by
  refine ⟨_, _, rfl, rfl, ?_⟩; decide +kernel

end Verif

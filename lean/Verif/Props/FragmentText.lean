import Verif.Lemmas.FragmentText
import Verif.Props.Paste
import Verif.Props.Markdown
import Verif.Props.HtmlDom
/-
C80: fragments made from plain text, Markdown and HTML, and what inserting them does.
C81: the HTML of a fragment, read back.
-/
namespace Verif
variable {s : Store} {d : Document} {f : Nat} {ps L R : List SPara} {p : SPara} {a b : List SChar}
open Store

/-! ### What a fragment holds -/

theorem splitLines_ne_nil (t : List Char) : splitLines t ≠ [] := by
  cases t with
  | nil => simp [splitLines]
  | cons c t =>
    unfold splitLines
    split
    · simp
    · split <;> simp

/-- The text of lines. -/
def lineFrags (ls : List (List Char)) : List FragBlock := ls.map fun line => { text := line, elements := [.text line {}] }

theorem lineFrag_chars (l : List Char) : (⟨l, [.text l {}], {}, none⟩ : FragBlock).chars = styled l (some {}) := by
  simp [FragBlock.chars]

theorem lineFrags_chars (t : List Char) : visibleChars (fragChars (lineFrags (splitLines t))) = t.map fun c => (c, ({} : CharFormat)) := by
  induction t with
  | nil => rfl
  | cons c t ih =>
    unfold splitLines
    by_cases hc : c = '\n'
    · rw [if_pos hc]
      obtain ⟨l, ls, e⟩ := List.exists_cons_of_ne_nil (splitLines_ne_nil t)
      rw [e] at ih ⊢
      simp only [lineFrags, List.map_cons] at ih ⊢
      rw [← ih, hc]
      simp [fragChars, visibleChars, FragBlock.chars, styled]
    · rw [if_neg hc]
      obtain ⟨l, ls, e⟩ := List.exists_cons_of_ne_nil (splitLines_ne_nil t)
      rw [e] at ih ⊢
      simp only [lineFrags, List.map_cons, fragChars_cons, lineFrag_chars] at ih ⊢
      rw [← ih]
      simp [visibleChars, styled]

theorem lineFrags_isText (ls : List (List Char)) : ∀ fb ∈ lineFrags ls, fb.IsText ∧ fb.inlineOnly = true ∧ fb.format = {} ∧ fb.list = none := by
  intro fb hfb
  obtain ⟨l, _, rfl⟩ := List.mem_map.mp hfb
  refine ⟨⟨by simp, ?_⟩, rfl, rfl, rfl⟩
  rw [lineFrag_chars]
  simp [styled, Function.comp_def]

/-- **C80.** A fragment of a plain text has this text, and it holds it as paragraphs without any formatting, one for each line. -/
theorem C80_plain (t : List Char) :
    (Fragment.fromPlainText t).plain = t ∧ (Fragment.fromPlainText t).tables = [] ∧
    visibleChars (fragChars (Fragment.fromPlainText t).blocks) = t.map (fun c => (c, ({} : CharFormat))) ∧
    (∀ fb ∈ (Fragment.fromPlainText t).blocks, fb.IsText ∧ fb.inlineOnly = true ∧ fb.format = {} ∧ fb.list = none) ∧
    (∀ fb ∈ (Fragment.fromPlainText t).blocks, '\n' ∉ fb.text) := by
  refine ⟨rfl, rfl, lineFrags_chars t, lineFrags_isText _, ?_⟩
  intro fb hfb
  obtain ⟨l, hl, rfl⟩ := List.mem_map.mp (show fb ∈ lineFrags (splitLines t) from hfb)
  show '\n' ∉ l
  clear hfb
  induction t generalizing l with
  | nil => simp only [splitLines, List.mem_singleton] at hl; subst hl; simp
  | cons c t ih =>
    unfold splitLines at hl
    by_cases hc : c = '\n'
    · rw [if_pos hc] at hl
      rcases List.mem_cons.mp hl with rfl | hl
      · simp
      · exact ih l hl
    · rw [if_neg hc] at hl
      obtain ⟨l0, ls, e⟩ := List.exists_cons_of_ne_nil (splitLines_ne_nil t)
      rw [e] at hl ih
      rcases List.mem_cons.mp hl with rfl | hl
      · have := ih l0 (by simp)
        simp only [List.mem_cons, not_or]
        exact ⟨fun h => hc h.symm, this⟩
      · exact ih l (by simp [hl])

/-- **C80.** A fragment of a Markdown or HTML text, whatever it was parsed into: it holds every block in order with its text, marks,
heading level and list, and every table, at its place among the blocks, with the text and marks of every cell; its plain text is the text of
the blocks, one line for each. -/
theorem C80_elements (es : List ParsedElement) :
    FragsOf (parsedBlocks es) (Fragment.ofElements es).blocks ∧ TablesOf (parsedTables 0 es) (Fragment.ofElements es).tables ∧
    (Fragment.ofElements es).plain = (markupChars (parsedBlocks es)).map Prod.fst := by
  refine ⟨?_, ?_, ?_⟩
  · show FragsOf _ (elementFrags 0 es).1
    rw [elementFrags_fst]
    exact fragsOf_map _
  · show TablesOf _ (elementFrags 0 es).2
    rw [elementFrags_snd]
    exact tablesOf_map _
  · show joinWith ['\n'] ((elementFrags 0 es).1.map FragBlock.text) = _
    rw [elementFrags_fst]
    have key : ∀ b : ParsedBlock, (blockFrag b).text = (spansChars false b.spans).map Prod.fst := by
      intro b
      unfold spansChars
      rw [List.map_flatMap]
      show b.spans.flatMap ParsedSpan.text = _
      congr 1
      funext x
      simp [styled, Function.comp_def]
    have tail : ∀ bs : List ParsedBlock, ∀ b, joinWith ['\n'] (((b :: bs).map blockFrag).map FragBlock.text) = (markupChars (b :: bs)).map Prod.fst := by
      intro bs
      induction bs with
      | nil => intro b; simp [joinWith, markupChars, key]
      | cons b' bs ih =>
        intro b
        have := ih b'
        simp only [List.map_cons, joinWith, List.flatMap_cons, markupChars, List.map_append, key] at this ⊢
        rw [← this]
        simp
    cases parsedBlocks es with
    | nil => rfl
    | cons b bs => exact tail bs b

/-- A fragment made from Markdown with a heading, a list item and a table. -/
example : (Fragment.ofElements (parseMarkdown (blockEvents
      [.heading 1 [.text ['h']], .list false [.tight [.mark .strong [.text ['a']]] []], .table [[.text ['1']]] [[[.text ['2']]]]]))).plain = "h\na".toList ∧
    (parsedTables 0 (parseMarkdown (blockEvents
      [.heading 1 [.text ['h']], .list false [.tight [.mark .strong [.text ['a']]] []], .table [[.text ['1']]] [[[.text ['2']]]]]))).map Prod.fst = [2] := by
  decide +kernel

/-! ### What inserting does -/

theorem split_ends {α : Type} (x y : α) (l : List α) : ∃ mid last, x :: y :: l = x :: (mid ++ [last]) := by
  induction l generalizing x y with
  | nil => exact ⟨[], y, rfl⟩
  | cons z l ih =>
    obtain ⟨mid, last, e⟩ := ih y z
    refine ⟨y :: mid, last, ?_⟩
    rw [e]; rfl

/-- **C80.** Inserting a fragment of text paragraphs, any number of them with any formatting, at any place of a document: the characters
before and behind the caret stay, and between them are exactly the characters of the fragment, each with its format, and a paragraph end
between each two of its paragraphs; a first or last paragraph with paragraph formatting is kept apart from the text around it.  Full
statement: for documents with images or tables, and fragments with them. -/
theorem C80_insert_partial (h : Flat s d f (L ++ p :: R)) (hp : Placed s (L ++ p :: R)) (hl : ListsOk s d (L ++ p :: R)) (hc : p.chars = a ++ b)
    (fr : Fragment) (first last : FragBlock) (hfirst : fr.blocks.head? = some first) (hlast : fr.blocks.getLast? = some last)
    (htx : ∀ fb ∈ fr.blocks, fb.IsText) (pos : Nat) (hpos : pos = charsBefore (paras L) + a.length) :
    ∃ s' r d' ps', s.insertDocumentFragment pos fr = some (s', r, s.snapshot) ∧ Flat s' d' f ps' ∧
      docChars ps' = (docChars (L ++ p :: R)).take pos ++ gapBefore first.inlineOnly a ++ fragChars fr.blocks ++
        gapAfter (decide (fr.blocks.length = 1)) last.inlineOnly a b ++ (docChars (L ++ p :: R)).drop pos := by
  unfold insertDocumentFragment
  generalize fr.blocks = fbs at *
  cases fbs with
  | nil => cases hfirst
  | cons fb fbs =>
    cases hfirst
    cases fbs with
    | nil =>
      cases hlast
      have htx := htx first (by simp)
      cases hin : first.inlineOnly with
      | true =>
        obtain ⟨s', e1, e2, _, e3⟩ := C64_inline_partial h hp hl hc htx hin pos hpos
        refine ⟨s', _, _, _, e1, e2, ?_⟩
        rw [e3]; simp [gapBefore, gapAfter, fragChars, hin]
      | false =>
        by_cases ha : a = []
        · subst ha
          obtain ⟨s', ls, hd, tl, e1, e2, e3, e4, e5, e6, _⟩ := C64_over_partial h hp hl htx hin pos (by simpa using hpos)
          refine ⟨s', _, _, _, e1, e2, ?_⟩
          subst hpos
          have hb : p.chars = b := by simpa using hc
          rw [take_docChars L R hc, drop_docChars L R hc, docChars_mid, tailChars_append, e4.chars]
          by_cases hb0 : b = []
          · rw [e5 (by rw [hb, hb0]), hb0]
            simp [gapBefore, gapAfter, fragChars, tailChars, hin]
          · obtain ⟨n, e⟩ := e6 (by rw [hb]; exact hb0)
            rw [e, hb]
            simp [gapBefore, gapAfter, fragChars, tailChars, hb0, hin]
        · obtain ⟨s', ls, q, n, e1, e2, e3, e4, _⟩ := C64_between_partial h hp hl hc ha htx hin pos hpos
          refine ⟨s', _, _, _, e1, e2, ?_⟩
          rw [e4]; simp [gapBefore, gapAfter, fragChars, ha, hin]
    | cons y fbs =>
      obtain ⟨mid, last', e⟩ := split_ends first y fbs
      have hlast' : last' = last := by
        rw [e, show first :: (mid ++ [last']) = (first :: mid) ++ [last'] from rfl, List.getLast?_append] at hlast
        simpa using hlast
      subst hlast'
      rw [e] at htx ⊢
      obtain ⟨s', ls, hd, new, tl, e1, _, e3, _, _, e4, _⟩ := C64_many_partial h hp hl hc htx pos hpos
      refine ⟨s', _, _, _, e1, e3, ?_⟩
      rw [e4]
      simp [gapBefore, gapAfter]

theorem visibleChars_append (x y : List SChar) : visibleChars (x ++ y) = visibleChars x ++ visibleChars y := by simp [visibleChars]
theorem visibleChars_take (x : List SChar) (n : Nat) : visibleChars (x.take n) = (visibleChars x).take n := by simp [visibleChars, List.map_take]
theorem visibleChars_drop (x : List SChar) (n : Nat) : visibleChars (x.drop n) = (visibleChars x).drop n := by simp [visibleChars, List.map_drop]

/-- **C80.** Inserting a plain text at the caret: the document shows exactly this text, without formatting, between what was before the caret
and what was behind it; the line breaks are the paragraphs added, the caret ends up behind the text, stored positions are right, the
paragraphs at the caret keep their format and all others stay as they were.  Full statement: without the hypothesis that stored
positions are right. -/
theorem C80_insert_plain_partial (h : Flat s d f (L ++ p :: R)) (hp : Placed s (L ++ p :: R)) (hl : ListsOk s d (L ++ p :: R))
    (hc : p.chars = a ++ b) (t : List Char) (pos : Nat) (hpos : pos = charsBefore (paras L) + a.length) :
    ∃ s' d' q qs, s.insertDocumentFragment pos (Fragment.fromPlainText t) = some (s', ⟨pos + t.length, t.count '\n'⟩, s.snapshot) ∧
      Flat s' d' f (L ++ q :: (qs ++ R)) ∧ Placed s' (L ++ q :: (qs ++ R)) ∧
      qs.length = t.count '\n' ∧ d'.blockCount = d.blockCount + t.count '\n' ∧ q.id = p.id ∧ q.shape = p.shape ∧
      (∀ x, qs.getLast? = some x → x.shape = p.shape) ∧
      visibleChars (docChars (L ++ q :: (qs ++ R))) =
        (visibleChars (docChars (L ++ p :: R))).take pos ++ t.map (fun c => (c, ({} : CharFormat))) ++ (visibleChars (docChars (L ++ p :: R))).drop pos := by
  have hlen : (splitLines t).length = t.count '\n' + 1 := by
    induction t with
    | nil => rfl
    | cons c t ih =>
      unfold splitLines
      by_cases hc : c = '\n'
      · rw [if_pos hc, hc]; simp [ih]
      · rw [if_neg hc]
        obtain ⟨l, ls, e⟩ := List.exists_cons_of_ne_nil (splitLines_ne_nil t)
        rw [e] at ih ⊢
        rw [List.count_cons_of_ne (by simpa using hc)]
        simpa using ih
  have hch := lineFrags_chars t
  have hbl : (Fragment.fromPlainText t).blocks = lineFrags (splitLines t) := rfl
  unfold insertDocumentFragment
  rw [hbl]
  obtain ⟨l, ls, e⟩ := List.exists_cons_of_ne_nil (splitLines_ne_nil t)
  have htx := lineFrags_isText (splitLines t)
  have htlen : (fragChars (lineFrags (splitLines t))).length = t.length := by
    have := congrArg List.length hch
    simpa [visibleChars] using this
  rw [e] at hlen hch htx htlen ⊢
  cases ls with
  | nil =>
    have h0 : t.count '\n' = 0 := by simpa using hlen.symm
    have hfb : lineFrags [l] = [⟨l, [.text l {}], {}, none⟩] := rfl
    rw [hfb] at hch htx htlen ⊢
    obtain ⟨s', e1, e2, e3, e4⟩ := C64_inline_partial h hp hl hc (htx _ (List.mem_singleton.mpr rfl)).1 (htx _ (List.mem_singleton.mpr rfl)).2.1 pos hpos
    simp only [fragChars] at hch htlen
    refine ⟨s', _, { p with chars := a ++ _ ++ b }, [], ?_, e2, e3, by rw [h0]; rfl, by rw [h0]; simp, rfl, rfl, by simp, ?_⟩
    · rw [e1, h0, htlen]; rfl
    · rw [List.nil_append, e4, visibleChars_append, visibleChars_append, hch, visibleChars_take, visibleChars_drop]
  | cons l' ls =>
    have hne : lineFrags (l :: l' :: ls) = ⟨l, [.text l {}], {}, none⟩ :: ⟨l', [.text l' {}], {}, none⟩ :: lineFrags ls := rfl
    obtain ⟨mid, last, e'⟩ := split_ends (⟨l, [.text l {}], {}, none⟩ : FragBlock) ⟨l', [.text l' {}], {}, none⟩ (lineFrags ls)
    rw [hne, e'] at hch htx htlen ⊢
    obtain ⟨s', ls', hd, new, tl, e1, em, e2, e3, _, e4, _⟩ := C64_many_partial h hp hl hc (fun fb hfb => (htx fb hfb).1) pos hpos
    have hf := (htx _ (List.mem_cons_self)).2.1
    have hla := (htx last (by simp)).2.1
    have hin : ¬ ((⟨l, [.text l {}], {}, none⟩ : FragBlock).inlineOnly = false ∧ a ≠ []) := by rw [hf]; simp
    have hmidlen : mid.length + 2 = t.count '\n' + 1 := by
      have h1 := congrArg List.length e'
      have h2 : (lineFrags ls).length = ls.length := by simp [lineFrags]
      simp only [List.length_cons, List.length_append, List.length_nil] at h1 hlen
      omega
    have hnew : new.length = mid.length := by
      have := em.new
      rw [if_neg hin, if_pos hla] at this
      simp only [List.nil_append, List.append_nil] at this
      exact this.length
    obtain ⟨shape, hsh, t1, _, _⟩ := em.tail
    obtain ⟨n, htl⟩ := t1 hla
    have hhd := em.joined hf
    have hshape : shape = p.shape := by rw [hsh, hf]; simp
    have hcount : new.length + tl.length = t.count '\n' := by rw [htl, hnew]; simp; omega
    have hdl : (docLen (L ++ hd :: (new ++ tl ++ R)) : Int) - docLen (L ++ p :: R) = t.length := by
      have key : ∀ (ps : List SPara), ps ≠ [] → (docChars ps).length = docLen ps := by
        intro ps hps
        induction ps with
        | nil => exact absurd rfl hps
        | cons q qs ih =>
          by_cases hq : qs = []
          · subst hq; simp [docChars, docLen]
          · rw [docLen_cons q hq, ← ih hq]
            obtain ⟨x, xs, rfl⟩ := List.exists_cons_of_ne_nil hq
            simp [docChars]; omega
      have h1 := congrArg List.length e4
      rw [if_neg hin, if_neg (by rw [hla]; simp)] at h1
      simp only [List.length_append, List.length_take, List.length_drop, List.length_nil] at h1
      rw [key _ (by simp), key _ (by simp)] at h1
      rw [htlen] at h1
      have h2 := docLen_mid L p R
      have h3 : charsBefore (paras (L ++ p :: R)) = charsBefore (paras L) + (a.length + b.length + 1) + charsBefore (paras R) := by
        rw [charsBefore_paras_two, charsBefore_paras_cons, hc]; simp; omega
      omega
    refine ⟨s', _, hd, new ++ tl, ?_, e2, e3, by rw [List.length_append, hcount], ?_, em.id, by rw [hhd], ?_, ?_⟩
    · rw [e1, hdl]
      congr 1
      have : ((new.length : Int) + tl.length) = (t.count '\n' : Nat) := by omega
      rw [this]
    · show d.blockCount + ((new.length : Int) + tl.length) = _
      omega
    · intro x hx
      rw [htl, List.getLast?_append] at hx
      simp only [List.getLast?_singleton, Option.some_or, Option.some.injEq] at hx
      rw [← hx]; exact hshape
    · rw [e4, if_neg hin, if_neg (by rw [hla]; simp)]
      simp only [List.append_nil]
      rw [visibleChars_append, visibleChars_append, hch, visibleChars_take, visibleChars_drop]

theorem FragsOf.fragChars {ks : List ParsedBlock} {fbs : List FragBlock} (h : FragsOf ks fbs) :
    visibleChars (fragChars fbs) = visibleChars (markupChars ks) := by
  induction ks generalizing fbs with
  | nil => cases fbs with
    | nil => rfl
    | cons _ _ => exact h.elim
  | cons k ks ih => cases fbs with
    | nil => exact h.elim
    | cons fb fbs =>
      have := ih h.2
      cases ks with
      | nil => cases fbs with
        | nil => exact h.1.chars
        | cons _ _ => exact h.2.elim
      | cons k' ks => cases fbs with
        | nil => exact h.2.elim
        | cons fb' fbs =>
          simp only [Verif.fragChars, markupChars, visibleChars_append] at this ⊢
          rw [h.1.chars, show (('\n', none) : SChar) :: Verif.fragChars (fb' :: fbs) = [('\n', none)] ++ Verif.fragChars (fb' :: fbs) from rfl,
            visibleChars_append, this]
          rfl

theorem FragsOf.length {ks : List ParsedBlock} {fbs : List FragBlock} (h : FragsOf ks fbs) : fbs.length = ks.length := by
  induction ks generalizing fbs with
  | nil => cases fbs with
    | nil => rfl
    | cons _ _ => exact h.elim
  | cons k ks ih => cases fbs with
    | nil => exact h.elim
    | cons fb fbs => simp [ih h.2]

theorem FragsOf.ends {ks : List ParsedBlock} {fbs : List FragBlock} (h : FragsOf ks fbs) (hne : ks ≠ []) :
    ∃ k k' fb fb', ks.head? = some k ∧ ks.getLast? = some k' ∧ fbs.head? = some fb ∧ fbs.getLast? = some fb' ∧ FragOf k fb ∧ FragOf k' fb' := by
  induction ks generalizing fbs with
  | nil => exact absurd rfl hne
  | cons k ks ih => cases fbs with
    | nil => exact h.elim
    | cons fb fbs =>
      cases ks with
      | nil => cases fbs with
        | nil => exact ⟨k, k, fb, fb, rfl, rfl, rfl, rfl, h.1, h.1⟩
        | cons _ _ => exact h.2.elim
      | cons k2 ks => cases fbs with
        | nil => exact h.2.elim
        | cons fb2 fbs =>
          obtain ⟨_, k', _, fb', _, e2, _, e4, _, e6⟩ := ih h.2 (by simp)
          exact ⟨k, k', fb, fb', rfl, by rw [List.getLast?_cons_cons]; exact e2, rfl, by rw [List.getLast?_cons_cons]; exact e4, h.1, e6⟩

/-- **C80.** Inserting what was parsed from Markdown or HTML: between what was before the caret and what was behind it, the document shows
exactly the text of the blocks, every character with its marks and link, and a paragraph end between each two blocks; a heading or list item
at the begin or end is kept apart from the text around it.  Full statement: also for tables among the blocks, and in documents with images
or tables. -/
theorem C80_insert_markup_partial (h : Flat s d f (L ++ p :: R)) (hp : Placed s (L ++ p :: R)) (hl : ListsOk s d (L ++ p :: R)) (hc : p.chars = a ++ b)
    (es : List ParsedElement) (htab : parsedTables 0 es = []) (k k' : ParsedBlock) (hk : (parsedBlocks es).head? = some k)
    (hk' : (parsedBlocks es).getLast? = some k') (pos : Nat) (hpos : pos = charsBefore (paras L) + a.length) :
    (Fragment.ofElements es).tables = [] ∧
    ∃ s' r d' ps', s.insertDocumentFragment pos (Fragment.ofElements es) = some (s', r, s.snapshot) ∧ Flat s' d' f ps' ∧
      visibleChars (docChars ps') = (visibleChars (docChars (L ++ p :: R))).take pos ++
        visibleChars (gapBefore (plainBlock k) a ++ markupChars (parsedBlocks es) ++
          gapAfter (decide ((parsedBlocks es).length = 1)) (plainBlock k') a b) ++ (visibleChars (docChars (L ++ p :: R))).drop pos := by
  obtain ⟨h1, h2, _⟩ := C80_elements es
  refine ⟨?_, ?_⟩
  · rw [htab] at h2
    revert h2
    cases (Fragment.ofElements es).tables with
    | nil => intro _; rfl
    | cons _ _ => intro h2; exact h2.elim
  · obtain ⟨k1, k2, fb, fb', e1, e2, e3, e4, e5, e6⟩ := h1.ends (by intro e; rw [e] at hk; cases hk)
    rw [hk] at e1; cases e1
    rw [hk'] at e2; cases e2
    obtain ⟨s', r, d', ps', q1, q2, q3⟩ := C80_insert_partial h hp hl hc (Fragment.ofElements es) fb fb' e3 e4
      (fun x hx => by obtain ⟨_, _, hx⟩ := h1.mem x hx; exact hx.text) pos hpos
    refine ⟨s', r, d', ps', q1, q2, ?_⟩
    rw [q3, e5.inlineOnly, e6.inlineOnly, h1.length]
    simp only [visibleChars_append, h1.fragChars, visibleChars_take, visibleChars_drop, List.append_assoc]

/-- **C80.** Inserting two or more blocks: besides, every block becomes a paragraph with its heading level, line height, wrapping,
direction, background and a list of its kind and depth; plain ones at the begin and end join the text around them. -/
theorem C80_insert_blocks_partial (h : Flat s d f (L ++ p :: R)) (hp : Placed s (L ++ p :: R)) (hl : ListsOk s d (L ++ p :: R)) (hc : p.chars = a ++ b)
    (es : List ParsedElement) (k k' : ParsedBlock) (ks : List ParsedBlock) (hks : parsedBlocks es = k :: (ks ++ [k']))
    (pos : Nat) (hpos : pos = charsBefore (paras L) + a.length) :
    ∃ s' r d' hd new tl first mid last, s.insertDocumentFragment pos (Fragment.ofElements es) = some (s', r, s.snapshot) ∧
      Flat s' d' f (L ++ hd :: (new ++ tl ++ R)) ∧ Placed s' (L ++ hd :: (new ++ tl ++ R)) ∧ ListsOk s' d' (L ++ hd :: (new ++ tl ++ R)) ∧
      FragOf k first ∧ FragsOf ks mid ∧ FragOf k' last ∧ PastedMany s' first mid last p a b hd new tl := by
  have e : (Fragment.ofElements es).blocks = blockFrag k :: (ks.map blockFrag ++ [blockFrag k']) := by
    show (elementFrags 0 es).1 = _
    rw [elementFrags_fst, hks]; simp
  unfold insertDocumentFragment
  rw [e]
  obtain ⟨s', ls, hd, new, tl, e1, em, e2, e3, e4, _⟩ := C64_many_partial h hp hl hc (first := blockFrag k) (mid := ks.map blockFrag)
    (last := blockFrag k') (by
      intro fb hfb
      simp only [List.mem_cons, List.mem_append, List.mem_map, List.not_mem_nil, or_false] at hfb
      rcases hfb with rfl | ⟨x, _, rfl⟩ | rfl
      · exact (blockFrag_of _).text
      · exact (blockFrag_of _).text
      · exact (blockFrag_of _).text) pos hpos
  exact ⟨s', _, _, hd, new, tl, _, _, _, e1, e2, e3, ⟨e4.known, e4.only, e4.items, e4.nodup, e4.fresh⟩, blockFrag_of k, fragsOf_map ks,
    blockFrag_of k', em⟩

theorem blockFrag_core (es : List ParsedElement) : Fragment.ofElements (es.map ParsedElement.core) = Fragment.ofElements es := by
  have e : ∀ n, elementFrags n (es.map ParsedElement.core) = elementFrags n es := by
    induction es with
    | nil => intro n; rfl
    | cons e es ih =>
      intro n
      cases e with
      | table rows => simp [elementFrags, ParsedElement.core, ih]
      | block b =>
        simp only [List.map_cons, ParsedElement.core, elementFrags, ih]
        congr 2
        unfold blockFrag
        cases b.listStyle <;> simp
  unfold Fragment.ofElements
  rw [e]

/-- **C80.** `insert_markdown`: what is inserted is what the Markdown text means.  `bs` is the tree of the text, `documentElements` the
blocks it means. -/
theorem C80_markdown_partial (h : Flat s d f (L ++ p :: R)) (hp : Placed s (L ++ p :: R)) (hl : ListsOk s d (L ++ p :: R)) (hc : p.chars = a ++ b)
    (bs : List MdBlock) (hg : GoodBlocks bs) (htab : parsedTables 0 (documentElements bs) = []) (k k' : ParsedBlock)
    (hk : (parsedBlocks (documentElements bs)).head? = some k) (hk' : (parsedBlocks (documentElements bs)).getLast? = some k')
    (pos : Nat) (hpos : pos = charsBefore (paras L) + a.length) :
    ∃ s' r d' ps', s.insertDocumentFragment pos (Fragment.ofElements (parseMarkdown (blockEvents bs))) = some (s', r, s.snapshot) ∧ Flat s' d' f ps' ∧
      visibleChars (docChars ps') = (visibleChars (docChars (L ++ p :: R))).take pos ++
        visibleChars (gapBefore (plainBlock k) a ++ markupChars (parsedBlocks (documentElements bs)) ++
          gapAfter (decide ((parsedBlocks (documentElements bs)).length = 1)) (plainBlock k') a b) ++ (visibleChars (docChars (L ++ p :: R))).drop pos := by
  have e : Fragment.ofElements (parseMarkdown (blockEvents bs)) = Fragment.ofElements (documentElements bs) := by
    rw [← C76_parse bs hg, blockFrag_core]
  rw [e]
  exact (C80_insert_markup_partial h hp hl hc (documentElements bs) htab k k' hk hk' pos hpos).2

/-- **C80.** `insert_html`: what is inserted is what the page means. -/
theorem C80_html_partial (h : Flat s d f (L ++ p :: R)) (hp : Placed s (L ++ p :: R)) (hl : ListsOk s d (L ++ p :: R)) (hc : p.chars = a ++ b)
    (bs : List HBl) (hg : GoodBls bs) (hh : heights (hblNodes bs) ≤ 128) (htab : parsedTables 0 (htmlElements bs) = []) (k k' : ParsedBlock)
    (hk : (parsedBlocks (htmlElements bs)).head? = some k) (hk' : (parsedBlocks (htmlElements bs)).getLast? = some k')
    (pos : Nat) (hpos : pos = charsBefore (paras L) + a.length) :
    ∃ s' r d' ps', s.insertDocumentFragment pos (Fragment.ofElements (parseHtml (hblNodes bs))) = some (s', r, s.snapshot) ∧ Flat s' d' f ps' ∧
      visibleChars (docChars ps') = (visibleChars (docChars (L ++ p :: R))).take pos ++
        visibleChars (gapBefore (plainBlock k) a ++ markupChars (parsedBlocks (htmlElements bs)) ++
          gapAfter (decide ((parsedBlocks (htmlElements bs)).length = 1)) (plainBlock k') a b) ++ (visibleChars (docChars (L ++ p :: R))).drop pos := by
  rw [C77_parse bs hg hh]
  exact (C80_insert_markup_partial h hp hl hc (htmlElements bs) htab k k' hk hk' pos hpos).2

/-- A Markdown text and a page for these theorems; documents and carets are those of the example in Props/Paste.lean. -/
example : GoodBlocks [.heading 1 [.text ['h']], .list false [.tight [.mark .strong [.text ['a']]] []], .para [.text ['z']]] ∧
    parsedTables 0 (documentElements [.heading 1 [.text ['h']], .list false [.tight [.mark .strong [.text ['a']]] []], .para [.text ['z']]]) = [] ∧
    parsedBlocks (documentElements [.heading 1 [.text ['h']], .list false [.tight [.mark .strong [.text ['a']]] []], .para [.text ['z']]]) =
      { spans := [{ text := ['h'] }], headingLevel := some 1 } ::
      ([{ spans := [{ text := ['a'], bold := true }], listStyle := some .disc }] ++ [{ spans := [{ text := ['z'] }] }]) ∧
    gapBefore (plainBlock { spans := [{ text := ['h'] }], headingLevel := some 1 }) [('x', none)] = [('\n', none)] := by
  refine ⟨?_, ?_, ?_, ?_⟩
  · simp [GoodBlocks, MdBlock.Good, GoodItems, MdItem.Good, NoRepeats, MdInline.NoRepeat, NoBreak, inlineSpans, MdInline.spans, Look.lacks,
      Look.with, MdBlock.isList]
  all_goals decide +kernel

/-- `Fragment.new` is refused. -/
theorem C80_new (s : Store) (pos : Int) : s.insertDocumentFragment pos Fragment.new = none ∧ Fragment.new.isEmpty = true :=
  ⟨C64_refused s pos pos [] (.inl rfl), rfl⟩

/-! ### Where the claim fails -/

/-- A code block inserted from Markdown is no code block, though the same text loaded with `set_markdown` makes one; a quotation is no
quotation. -/
theorem C80_code_fails : ∃ s s' : Store, ∃ r u,
    (Store.newStore.bind fun s => s.importPlainText "".toList) = some s ∧
    s.insertDocumentFragment 0 (Fragment.ofElements (parseMarkdown (blockEvents [.code (some "rust") [['x', '\n']]]))) = some (s', r, u) ∧
    s'.exportPlainText = some "x".toList ∧ (s'.blocks 2).map Block.fmtIsCodeBlock = some none ∧
    documentElements [.code (some "rust") [['x', '\n']]] =
      [.block { spans := [{ text := ['x'], code := true }], isCodeBlock := true, codeLanguage := some "rust" }] := by
  refine ⟨_, _, _, _, rfl, rfl, ?_⟩ <;> decide +kernel

theorem C80_quote_fails : documentElements [.quote [.para [.text ['x']]]] = [.block { spans := [{ text := ['x'] }], quoteDepth := 1 }] ∧
    Fragment.ofElements (documentElements [.quote [.para [.text ['x']]]]) = Fragment.ofElements (documentElements [.para [.text ['x']]]) := by
  decide +kernel

/-- The plain text of a fragment leaves tables out, and a fragment that is a table says it is empty. -/
theorem C80_table_text_fails : ∃ fr : Fragment, fr = Fragment.ofElements (parseMarkdown (blockEvents [.table [[.text ['1']]] [[[.text ['2']]]]])) ∧
    fr.tables ≠ [] ∧ fr.plain = [] ∧ fr.isEmpty = true := by
  refine ⟨_, rfl, ?_⟩; decide +kernel

/-! ### HTML -/

/-- **C81.** The HTML of a fragment of text paragraphs, as an HTML reader reads it, has the paragraphs of the fragment in order: every
character, with its marks and its link, headings with their level, list items of their kind, and the alignment, indents and margins of plain
paragraphs. -/
theorem C81_html_partial (bs : List FragBlock) (plain : List Char) (htx : ∀ fb ∈ bs, fb.IsText)
    (hb : ∀ fb, bs = [fb] → fb.inlineOnly = false) : readHtml (Fragment.toHtml ⟨some (bs, []), plain⟩) = some (bs.map fragPageOf) := by
  have hbody : ∀ n, bs.length ≤ n → readHtml ("<html><head><meta charset=\"utf-8\"></head><body>".toList ++ fragBody n 0 bs [] ++
      "</body></html>".toList) = some (bs.map fragPageOf) := fun n hn =>
    readHtml_page (Par.fragBody (by intro e he; simp only [List.mem_cons, List.not_mem_nil, or_false] at he; rcases he with rfl | rfl <;> decide)
      n 0 bs hn htx)
  unfold Fragment.toHtml
  cases bs with
  | nil => exact hbody _ (Nat.le_refl _)
  | cons b bs =>
    cases bs with
    | nil => simp only [hb b rfl]; exact hbody 1 (Nat.le_refl _)
    | cons b' bs => exact hbody _ (Nat.le_refl _)

/-- **C81.** The HTML of a single paragraph without paragraph formatting is its text, without an element around it. -/
theorem C81_inline_partial (fb : FragBlock) (plain : List Char) (htx : fb.IsText) (hin : fb.inlineOnly = true) :
    readInlineHtml (Fragment.toHtml ⟨some ([fb], []), plain⟩) =
      some [⟨.para, [], fb.chars.map fun c => (c.1, fragMarksOf (c.2.getD {}))⟩] := by
  unfold Fragment.toHtml
  simp only [hin, if_true]
  exact readInlineHtml_page (htx.inl (by
    intro e he
    simp only [List.mem_cons, List.not_mem_nil, or_false] at he
    rcases he with rfl | rfl | rfl <;> decide))

/-- **C81.** The HTML of a plain text with more than one line reads as its lines, whatever characters they have. -/
theorem C81_plain (t : List Char) (hn : '\n' ∈ t) : readHtml (Fragment.fromPlainText t).toHtml =
    some ((splitLines t).map fun l => ⟨.para, [], l.map fun c => (c, {})⟩) := by
  have h := C81_html_partial (lineFrags (splitLines t)) t (fun fb hfb => (lineFrags_isText _ fb hfb).1) (by
    intro fb e
    have h1 := congrArg List.length e
    simp only [lineFrags, List.length_map, List.length_singleton] at h1
    exfalso
    have : ∀ t : List Char, '\n' ∈ t → 1 < (splitLines t).length := by
      intro t
      induction t with
      | nil => simp
      | cons c t ih =>
        intro hm
        unfold splitLines
        have hne := List.length_pos_iff.mpr (splitLines_ne_nil t)
        by_cases hc : c = '\n'
        · rw [if_pos hc]; simp only [List.length_cons]; omega
        · rw [if_neg hc]
          have := ih (by simpa [Ne.symm hc] using hm)
          obtain ⟨l, ls, e⟩ := List.exists_cons_of_ne_nil (splitLines_ne_nil t)
          rw [e] at this ⊢
          exact this
    have := this t hn
    omega)
  have e : (Fragment.fromPlainText t) = ⟨some (lineFrags (splitLines t), []), t⟩ := rfl
  rw [e, h]
  congr 1
  simp only [lineFrags, List.map_map]
  congr 1
  funext l
  show (⟨.para, [], (FragBlock.chars ⟨l, [.text l {}], {}, none⟩).map _⟩ : HtmlPara) = _
  rw [lineFrag_chars]
  simp [styled, Function.comp_def]
  intro c _
  rfl

/-- A heading, two items and a paragraph with styles, with markup characters in the text. -/
example : (⟨some ([⟨['<'], [.text ['<'] { fontBold := some true }], { fmtHeadingLevel := some 2 }, none⟩,
      ⟨['a'], [.text ['a'] {}], {}, some { style := .decimal }⟩, ⟨['b'], [.text ['b'] {}], {}, some { style := .disc }⟩,
      ⟨['&'], [.text ['&'] { isAnchor := some true, anchorHref := some "u\"v" }], { fmtTopMargin := some (-3) }, none⟩], []), []⟩ : Fragment).toHtml =
    ("<html><head><meta charset=\"utf-8\"></head><body><h2><strong>&lt;</strong></h2><ol><li>a</li></ol><ul><li>b</li></ul>" ++
      "<p style=\"margin-top: -3px\"><a href=\"u&quot;v\">&amp;</a></p></body></html>").toList := by decide +kernel

/-- The HTML of a code block, of right-to-left text and of a line height is that of a paragraph with none of them; an item and a heading lose
their alignment. -/
theorem C81_styles_fails : ∀ (t : List Char) (o : Option FragList),
    (∀ f : Block, f ∈ ([{ fmtIsCodeBlock := some true, fmtCodeLanguage := some "rust" }, { fmtDirection := some .rightToLeft }, { fmtLineHeight := some 2000 }] : List Block) →
      fragPara ⟨t, [.text t {}], f, none⟩ = fragPara ⟨t, [.text t {}], {}, none⟩) ∧
    fragPara ⟨t, [.text t {}], { fmtHeadingLevel := some 1, fmtAlignment := some .right }, none⟩ =
      fragPara ⟨t, [.text t {}], { fmtHeadingLevel := some 1 }, none⟩ ∧
    fragInline ⟨t, [.text t {}], { fmtAlignment := some .right }, o⟩ = fragInline ⟨t, [.text t {}], {}, o⟩ := by
  intro t o
  refine ⟨?_, rfl, rfl⟩
  intro f hf
  simp only [List.mem_cons, List.not_mem_nil, or_false] at hf
  rcases hf with rfl | rfl | rfl <;> rfl

/-- A table between two items of a list is put behind the list: the fragment holds it before the second item, its HTML behind it. -/
theorem C81_table_fails : ∃ fr : Fragment, fr.data = some ([⟨['a'], [.text ['a'] {}], {}, some { style := .disc }⟩, ⟨['b'], [.text ['b'] {}], {}, some { style := .disc }⟩],
      [⟨1, 1, [⟨0, 0, 1, 1, [], {}⟩], 1, {}⟩]) ∧
    fr.toHtml = "<html><head><meta charset=\"utf-8\"></head><body><ul><li>a</li><li>b</li></ul><table><tr><td></td></tr></table></body></html>".toList :=
  ⟨⟨_, []⟩, rfl, by decide +kernel⟩

end Verif

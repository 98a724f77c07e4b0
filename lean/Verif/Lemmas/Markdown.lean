import Verif.Spec.Markdown
/- Reading the events of a Markdown tree. -/
namespace Verif
namespace MdSt

/-- The state with these marks. -/
def setLook (x : MdSt) (k : Look) : MdSt := { x with bold := k.bold, italic := k.italic, strikeout := k.strike, link := k.link }

/-- A span or a forced break in a text. -/
def feed (x : MdSt) : Option ParsedSpan → MdSt
  | some sp => { x with inBlock := true, spans := x.spans ++ [sp] }
  | none => x.step .hard

theorem feed_look (l : List (Option ParsedSpan)) (k : Look) : ∀ x : MdSt,
    l.foldl feed (x.setLook k) = (l.foldl feed x).setLook k := by
  induction l with
  | nil => intro x; rfl
  | cons a l ih =>
    intro x
    rw [List.foldl_cons, List.foldl_cons, ← ih]
    congr 1
    cases a with
    | some sp => rfl
    | none =>
      show (x.setLook k).step .hard = (x.step .hard).setLook k
      by_cases hx : x.spans ≠ [] ∨ x.inBlock = true
      · have hx' : (x.setLook k).spans ≠ [] ∨ (x.setLook k).inBlock = true := hx
        simp only [step, if_pos hx, if_pos hx']
        rfl
      · have hx' : ¬ ((x.setLook k).spans ≠ [] ∨ (x.setLook k).inBlock = true) := hx
        simp only [step, if_neg hx, if_neg hx']

theorem feed_keeps (l : List (Option ParsedSpan)) : ∀ x : MdSt, x.inBlock = true → x.inTable = false → x.isCode = false →
    (l.foldl feed x).inBlock = true ∧ (l.foldl feed x).inTable = false ∧ (l.foldl feed x).isCode = false := by
  induction l with
  | nil => intro x h1 h2 h3; exact ⟨h1, h2, h3⟩
  | cons a l ih =>
    intro x h1 h2 h3
    rw [List.foldl_cons]
    cases a with
    | some sp => exact ih _ rfl h2 h3
    | none =>
      refine ih _ ?_ ?_ ?_ <;> (show _ = _) <;> simp only [feed, step] <;> split <;> assumption

theorem setLook_mark (x : MdSt) (k : Look) (m : MdMark) : (x.setLook k).step (.startMark m) = x.setLook (k.with m) := by
  cases m <;> rfl

theorem setLook_unmark (x : MdSt) (k : Look) (m : MdMark) (h : k.lacks m) : (x.setLook (k.with m)).step (.endMark m) = x.setLook k := by
  cases m <;> (simp only [Look.lacks] at h; simp [setLook, Look.with, step, h])

mutual
theorem inline_feed (k : Look) : ∀ (a : MdInline) (x : MdSt), a.NoRepeat k → x.inBlock = true → x.inTable = false → x.isCode = false →
    a.events.foldl step (x.setLook k) = ((a.spans k).foldl feed x).setLook k
  | .text t, x, _, h1, h2, h3 => by
    simp [MdInline.events, MdInline.spans, step, span, look, setLook, feed, h2, h3, Look.span]
  | .code t, x, _, h1, h2, h3 => by
    simp [MdInline.events, MdInline.spans, step, span, look, setLook, feed, h2, h3, Look.span]
  | .soft, x, _, h1, h2, h3 => by
    simp [MdInline.events, MdInline.spans, step, span, look, setLook, feed, h2, h1, Look.span]
  | .hard, x, _, _, _, _ => feed_look [none] k x
  | .other, x, _, _, _, _ => rfl
  | .mark m xs, x, h, h1, h2, h3 => by
    rw [MdInline.NoRepeat] at h
    rw [MdInline.events, MdInline.spans, List.foldl_cons, List.foldl_append, setLook_mark, inlines_feed (k.with m) xs x h.2 h1 h2 h3]
    rw [List.foldl_cons, List.foldl_nil, setLook_unmark _ _ _ h.1]
theorem inlines_feed (k : Look) : ∀ (xs : List MdInline) (x : MdSt), NoRepeats k xs → x.inBlock = true → x.inTable = false →
    x.isCode = false → (inlineEvents xs).foldl step (x.setLook k) = ((inlineSpans k xs).foldl feed x).setLook k
  | [], x, _, _, _, _ => rfl
  | a :: xs, x, h, h1, h2, h3 => by
    rw [NoRepeats] at h
    rw [inlineEvents, inlineSpans, List.foldl_append, List.foldl_append, inline_feed k a x h.1 h1 h2 h3]
    obtain ⟨g1, g2, g3⟩ := feed_keeps (a.spans k) x h1 h2 h3
    exact inlines_feed k xs _ h.2 g1 g2 g3
end

/-- The same in a table cell. -/
def cellFeed (x : MdSt) (l : List (Option ParsedSpan)) : MdSt := { x with cellSpans := x.cellSpans ++ l.filterMap id }

mutual
theorem inline_cell (k : Look) : ∀ (a : MdInline) (x : MdSt), a.NoRepeat k → none ∉ a.spans k → x.inTable = true → x.isCode = false →
    a.events.foldl step (x.setLook k) = (x.cellFeed (a.spans k)).setLook k
  | .text t, x, _, _, h2, h3 => by
    simp [MdInline.events, MdInline.spans, step, span, look, setLook, cellFeed, h2, h3, Look.span]
  | .code t, x, _, _, h2, h3 => by
    simp [MdInline.events, MdInline.spans, step, span, look, setLook, cellFeed, h2, h3, Look.span]
  | .soft, x, _, _, h2, h3 => by
    simp [MdInline.events, MdInline.spans, step, span, look, setLook, cellFeed, h2, Look.span]
  | .hard, x, _, hb, _, _ => by simp [MdInline.spans] at hb
  | .other, x, _, _, _, _ => by simp [MdInline.events, MdInline.spans, step, cellFeed]
  | .mark m xs, x, h, hb, h2, h3 => by
    rw [MdInline.NoRepeat] at h
    rw [MdInline.spans] at hb
    rw [MdInline.events, MdInline.spans, List.foldl_cons, List.foldl_append, setLook_mark, inlines_cell (k.with m) xs x h.2 hb h2 h3]
    rw [List.foldl_cons, List.foldl_nil, setLook_unmark _ _ _ h.1]
theorem inlines_cell (k : Look) : ∀ (xs : List MdInline) (x : MdSt), NoRepeats k xs → none ∉ inlineSpans k xs → x.inTable = true →
    x.isCode = false → (inlineEvents xs).foldl step (x.setLook k) = (x.cellFeed (inlineSpans k xs)).setLook k
  | [], x, _, _, _, _ => by simp [inlineEvents, inlineSpans, cellFeed]
  | a :: xs, x, h, hb, h2, h3 => by
    rw [NoRepeats] at h
    rw [inlineSpans, List.mem_append] at hb
    rw [inlineEvents, inlineSpans, List.foldl_append, inline_cell k a x h.1 (fun e => hb (.inl e)) h2 h3,
      inlines_cell k xs (x.cellFeed (a.spans k)) h.2 (fun e => hb (.inr e)) h2 h3]
    simp [cellFeed]
end

end MdSt

theorem breakLines_ne_nil {α : Type} (l : List (Option α)) : breakLines l ≠ [] := by
  induction l with
  | nil => simp [breakLines]
  | cons a l ih =>
    cases a with
    | none => simp [breakLines]
    | some a =>
      unfold breakLines
      split <;> simp

theorem linesOf_ne_nil (xs : List MdInline) : linesOf xs ≠ [] := breakLines_ne_nil _

theorem breakLines_some {α : Type} (a : List α) : breakLines (a.map some) = [a] := by
  induction a with
  | nil => rfl
  | cons x a ih => simp [breakLines, ih]

theorem breakLines_break {α : Type} (a : List α) (l : List (Option α)) : breakLines (a.map some ++ none :: l) = a :: breakLines l := by
  induction a with
  | nil => rfl
  | cons x a ih => simp [breakLines, ih]

theorem some_of_noBreak {α : Type} (l : List (Option α)) (h : none ∉ l) : l = (l.filterMap id).map some := by
  induction l with
  | nil => rfl
  | cons a l ih =>
    cases a with
    | none => simp at h
    | some a =>
      have h' : none ∉ l := fun e => h (List.mem_cons_of_mem _ e)
      rw [List.filterMap_cons]
      dsimp only [id]
      rw [List.map_cons, ← ih h']

namespace MdSt

theorem feed_spans (l : List ParsedSpan) : ∀ x : MdSt, x.inBlock = true →
    (l.map some).foldl feed x = { x with spans := x.spans ++ l } := by
  induction l with
  | nil => intro x _; simp
  | cons a l ih =>
    intro x h
    rw [List.map_cons, List.foldl_cons, ih _ rfl]
    simp [feed, h]

/-- A line of a text as a block. -/
def lineBlock (x : MdSt) (l : List ParsedSpan) : ParsedElement :=
  .block { spans := l, listStyle := x.listStyle, listIndent := x.listIndent, quoteDepth := x.quoteDepth }

/-- The lines before the last one are blocks, the last one waits. -/
theorem feed_lines (l : List (Option ParsedSpan)) : ∀ x : MdSt, x.inBlock = true → x.heading = none → x.isCode = false →
    x.codeLanguage = none → l.foldl feed x =
      { x with elements := x.elements ++ (breakLines (x.spans.map some ++ l)).dropLast.map x.lineBlock
               spans := (breakLines (x.spans.map some ++ l)).getLast (breakLines_ne_nil _) } := by
  induction l with
  | nil => intro x _ _ _ _; simp [breakLines_some]
  | cons a l ih =>
    intro x h1 h2 h3 h4
    rw [List.foldl_cons]
    cases a with
    | some sp =>
      rw [ih (x.feed (some sp)) rfl h2 h3 h4]
      have e : (x.feed (some sp)).spans.map some ++ l = x.spans.map some ++ some sp :: l := by simp [feed]
      have el : (x.feed (some sp)).lineBlock = x.lineBlock := rfl
      simp only [e, el]
      simp [feed, h1]
    | none =>
      have ef : x.feed none = { x with elements := x.elements ++ [x.lineBlock x.spans], spans := [] } := by
        simp [feed, step, h1, h2, h3, h4, emit, lineBlock]
      rw [ef, ih { x with elements := x.elements ++ [x.lineBlock x.spans], spans := [] } h1 h2 h3 h4]
      have el : ({ x with elements := x.elements ++ [x.lineBlock x.spans], spans := [] } : MdSt).lineBlock = x.lineBlock := rfl
      have hp := breakLines_break x.spans l
      have hne := breakLines_ne_nil l
      simp only [List.map_nil, List.nil_append, hp, List.getLast_cons hne, List.dropLast_cons_of_ne_nil hne, List.map_cons, el]
      simp

/-- Between two blocks. -/
structure Weak (x : MdSt) (depth : Nat) (lists : List ListStyle) : Prop where
  heading : x.heading = none
  isCode : x.isCode = false
  language : x.codeLanguage = none
  look : x.bold = false ∧ x.italic = false ∧ x.strikeout = false ∧ x.link = none
  inTable : x.inTable = false
  depth : x.quoteDepth = depth
  lists : x.listStack = lists

/-- Between two blocks with nothing waiting. -/
structure Idle (x : MdSt) (depth : Nat) (lists : List ListStyle) : Prop extends Weak x depth lists where
  spans : x.spans = []
  style : x.listStyle = none

/-- The elements, with what waits. -/
def flushed (x : MdSt) : List ParsedElement := x.flush.elements.map ParsedElement.core

theorem Idle.flushed {x : MdSt} {n : Nat} {ls : List ListStyle} (h : Idle x n ls) : x.flushed = x.elements.map ParsedElement.core := by
  simp [MdSt.flushed, flush, h.spans]

theorem plain_look {x : MdSt} (h : x.bold = false ∧ x.italic = false ∧ x.strikeout = false ∧ x.link = none) : x.setLook {} = x := by
  obtain ⟨h1, h2, h3, h4⟩ := h
  cases x
  simp only at h1 h2 h3 h4
  subst h1 h2 h3 h4
  rfl

theorem Weak.text {x : MdSt} {n : Nat} {ls : List ListStyle} (h : Weak x n ls) (hb : x.inBlock = true) (hs : x.spans = [])
    {xs : List MdInline} (hx : NoRepeats {} xs) :
    (inlineEvents xs).foldl step x =
      { x with elements := x.elements ++ (linesOf xs).dropLast.map x.lineBlock
               spans := (linesOf xs).getLast (linesOf_ne_nil xs) } := by
  have e := inlines_feed {} xs x hx hb h.inTable h.isCode
  rw [← feed_look, plain_look h.look] at e
  rw [e, feed_lines _ x hb h.heading h.isCode h.language]
  simp [hs, linesOf]

theorem map_last {α β : Type} (l : List α) (h : l ≠ []) (g : α → β) : l.dropLast.map g ++ [g (l.getLast h)] = l.map g := by
  conv => rhs; rw [← List.dropLast_concat_getLast h, List.map_append]
  rfl

theorem Weak.para {x : MdSt} {n : Nat} {ls : List ListStyle} (h : Weak x n ls) (hs : x.spans = []) {xs : List MdInline}
    (hx : NoRepeats {} xs) :
    Idle ((MdBlock.para xs).events.foldl step x) n ls ∧ ((MdBlock.para xs).events.foldl step x).elements =
      x.elements ++ (linesOf xs).map fun l =>
        .block { spans := l, listStyle := x.listStyle, listIndent := x.listIndent, quoteDepth := n } := by
  have h1 : Weak (x.step .startPara) n ls := ⟨rfl, rfl, h.language, h.look, h.inTable, h.depth, h.lists⟩
  rw [MdBlock.events, List.foldl_cons, List.foldl_append, h1.text rfl hs hx]
  simp only [List.foldl_cons, List.foldl_nil]
  refine ⟨⟨⟨?_, ?_, ?_, ?_, ?_, ?_, ?_⟩, ?_, ?_⟩, ?_⟩
  · simp [step, emit]
  · simp [step, emit]
  · simp [step, emit, h.language]
  · simp [step, emit, h.look]
  · simp [step, emit, h.inTable]
  · simp [step, emit, h.depth]
  · simp [step, emit, h.lists]
  · simp [step, emit]
  · simp [step, emit]
  · have := map_last (linesOf xs) (linesOf_ne_nil xs) x.lineBlock
    simp only [step, emit, or_true, if_true, textBlock, List.append_assoc]
    congr 1
    refine Eq.trans ?_ (Eq.trans this ?_)
    · rfl
    · apply List.map_congr_left
      intro a _
      simp only [lineBlock, h.depth]

theorem Idle.heading' {x : MdSt} {n : Nat} {ls : List ListStyle} (h : Idle x n ls) (lv : Nat) {xs : List MdInline}
    (hx : NoRepeats {} xs) (hb : NoBreak xs) :
    Idle ((MdBlock.heading lv xs).events.foldl step x) n ls ∧ ((MdBlock.heading lv xs).events.foldl step x).elements =
      x.elements ++ (MdBlock.heading lv xs).elements n ls := by
  have e := inlines_feed {} xs (x.step (.startHeading lv)) hx rfl h.inTable rfl
  rw [← feed_look, plain_look (x := x.step (.startHeading lv)) h.look, some_of_noBreak _ hb, feed_spans _ _ rfl] at e
  rw [MdBlock.events, List.foldl_cons, List.foldl_append, e]
  simp only [List.foldl_cons, List.foldl_nil]
  refine ⟨⟨⟨rfl, rfl, h.language, h.look, h.inTable, h.depth, h.lists⟩, rfl, h.style⟩, ?_⟩
  simp [step, emit, h.spans, MdBlock.elements, spansOf, h.depth]

theorem texts_feed (ts : List (List Char)) : ∀ {x : MdSt}, x.inTable = false → x.isCode = true → x.inBlock = true →
    (x.bold = false ∧ x.italic = false ∧ x.strikeout = false ∧ x.link = none) →
    (ts.map MdEvent.text).foldl step x = { x with spans := x.spans ++ ts.map fun t => { text := t, code := true } } := by
  induction ts with
  | nil => intro x _ _ _ _; simp
  | cons t ts ih =>
    intro x h1 h2 h3 h4
    have e : x.step (.text t) = { x with spans := x.spans ++ [{ text := t, code := true }] } := by
      simp [step, span, look, h1, h2, h3, h4]
    rw [List.map_cons, List.foldl_cons, e, ih (x := { x with spans := x.spans ++ [{ text := t, code := true }] }) h1 h2 h3 h4]
    simp

theorem Idle.code {x : MdSt} {n : Nat} {ls : List ListStyle} (h : Idle x n ls) (fence : Option String) (ts : List (List Char)) :
    Idle ((MdBlock.code fence ts).events.foldl step x) n ls ∧ ((MdBlock.code fence ts).events.foldl step x).elements =
      x.elements ++ (MdBlock.code fence ts).elements n ls := by
  rw [MdBlock.events, List.foldl_cons, List.foldl_append, texts_feed ts (x := x.step (.startCode fence)) h.inTable rfl rfl h.look]
  simp only [List.foldl_cons, List.foldl_nil]
  refine ⟨⟨⟨h.heading, rfl, rfl, h.look, h.inTable, h.depth, h.lists⟩, rfl, h.style⟩, ?_⟩
  simp [step, emit, h.spans, MdBlock.elements, codeSpans, h.depth]

theorem cells_feed (cs : List (List MdInline)) : ∀ {x : MdSt}, (∀ xs ∈ cs, NoRepeats {} xs ∧ NoBreak xs) → x.inTable = true →
    x.isCode = false → (x.bold = false ∧ x.italic = false ∧ x.strikeout = false ∧ x.link = none) → x.cellSpans = [] →
    (cellEvents cs).foldl step x = { x with cells := x.cells ++ cs.map spansOf } := by
  induction cs with
  | nil => intro x _ _ _ _ _; simp [cellEvents]
  | cons xs cs ih =>
    intro x hc h1 h2 h3 h4
    obtain ⟨g1, g2⟩ := hc xs (by simp)
    have e := inlines_cell {} xs (x.step .startCell) g1 g2 h1 h2
    rw [plain_look (x := x.step .startCell) h3, plain_look (x := (x.step .startCell).cellFeed (inlineSpans {} xs)) h3] at e
    have e2 : (cellEvents (xs :: cs)).foldl step x = (cellEvents cs).foldl step
        { x with cells := x.cells ++ [spansOf xs] } := by
      rw [cellEvents, List.flatMap_cons, List.foldl_append, List.foldl_cons, List.foldl_append, e]
      simp [step, cellFeed, spansOf, h4, cellEvents]
    rw [e2, ih (x := { x with cells := x.cells ++ [spansOf xs] }) (fun ys hy => hc ys (List.mem_cons_of_mem _ hy)) h1 h2 h3 h4]
    simp

theorem rows_feed (rs : List (List (List MdInline))) : ∀ {x : MdSt}, (∀ r ∈ rs, ∀ xs ∈ r, NoRepeats {} xs ∧ NoBreak xs) →
    x.inTable = true → x.isCode = false → x.inHead = false →
    (x.bold = false ∧ x.italic = false ∧ x.strikeout = false ∧ x.link = none) → x.cellSpans = [] → x.cells = [] →
    (rs.flatMap fun r => MdEvent.startRow :: (cellEvents r ++ [.endRow])).foldl step x =
      { x with rows := x.rows ++ rs.map fun r => r.map spansOf } := by
  induction rs with
  | nil => intro x _ _ _ _ _ _ _; simp
  | cons r rs ih =>
    intro x hc h1 h2 h3 h4 h5 h6
    rw [List.flatMap_cons, List.foldl_append, List.foldl_cons, List.foldl_append,
      cells_feed r (x := x.step .startRow) (hc r (by simp)) h1 h2 h4 h5]
    have e : (MdSt.step { x.step .startRow with cells := (x.step .startRow).cells ++ r.map spansOf } .endRow) =
        { x with rows := x.rows ++ [r.map spansOf], cells := [] } := by
      simp [step, h3]
    rw [List.foldl_cons, List.foldl_nil, e, ih (x := { x with rows := x.rows ++ [r.map spansOf], cells := [] }) (fun r hr => hc r (List.mem_cons_of_mem _ hr)) h1 h2 h3 h4 h5 rfl]
    simp [h6]

theorem Idle.table {x : MdSt} {n : Nat} {ls : List ListStyle} (h : Idle x n ls) (head : List (List MdInline))
    (rows : List (List (List MdInline))) (hg : ∀ r ∈ head :: rows, ∀ xs ∈ r, NoRepeats {} xs ∧ NoBreak xs) :
    Idle ((MdBlock.table head rows).events.foldl step x) n ls ∧ ((MdBlock.table head rows).events.foldl step x).elements =
      x.elements ++ (MdBlock.table head rows).elements n ls := by
  rw [MdBlock.events, List.foldl_cons, List.foldl_cons, List.foldl_append,
    cells_feed head (x := (x.step .startTable).step .startHead) (hg head (by simp)) rfl h.isCode h.look rfl]
  rw [List.foldl_cons, List.foldl_append, rows_feed rows (x := MdSt.step { ((x.step .startTable).step .startHead) with
    cells := ((x.step .startTable).step .startHead).cells ++ head.map spansOf } .endHead) (fun r hr => hg r (List.mem_cons_of_mem _ hr)) rfl h.isCode rfl h.look rfl rfl]
  simp only [List.foldl_cons, List.foldl_nil]
  refine ⟨⟨⟨h.heading, h.isCode, h.language, h.look, rfl, h.depth, h.lists⟩, h.spans, h.style⟩, ?_⟩
  simp [step, emit, MdBlock.elements]

theorem core_map (g : List ParsedSpan → ParsedElement) (hg : ∀ l, (g l).core = g l) (l : List (List ParsedSpan)) :
    (l.map g).map ParsedElement.core = l.map g := by
  rw [List.map_map]
  apply List.map_congr_left
  intro a _
  exact hg a

theorem core_item (ls : List ListStyle) (n : Nat) (l : List ParsedSpan) :
    (ParsedElement.block { spans := l, listStyle := ls.head?, listIndent := ls.length - 1, quoteDepth := n }).core =
      .block { spans := l, listStyle := ls.head?, listIndent := ls.length - 1, quoteDepth := n } := by
  cases ls with
  | nil => simp [ParsedElement.core]
  | cons a ls => simp [ParsedElement.core]

theorem Weak.flush {x : MdSt} {n : Nat} {ls : List ListStyle} (h : Weak x n ls) : Weak x.flush n ls ∧ x.flush.spans = [] := by
  unfold MdSt.flush
  split
  · exact ⟨h, by assumption⟩
  · exact ⟨⟨h.heading, h.isCode, h.language, h.look, h.inTable, h.depth, h.lists⟩, rfl⟩

theorem Weak.startItem {x : MdSt} {n : Nat} {ls : List ListStyle} (h : Weak x n ls) :
    Weak (x.step .startItem) n ls ∧ (x.step .startItem).spans = [] ∧ (x.step .startItem).inBlock = true ∧
      (x.step .startItem).listStyle = ls.head? ∧ (x.step .startItem).listIndent = ls.length - 1 ∧
      (x.step .startItem).elements = x.flush.elements := by
  obtain ⟨h1, h2⟩ := h.flush
  refine ⟨⟨h1.heading, h1.isCode, h1.language, h1.look, h1.inTable, h1.depth, h1.lists⟩, h2, rfl, ?_, ?_, rfl⟩
  · show x.flush.listStack.head? = _
    rw [h1.lists]
  · show x.flush.listStack.length - 1 = _
    rw [h1.lists]

theorem Weak.endItem {x : MdSt} {n : Nat} {ls : List ListStyle} (h : Weak x n ls) :
    Idle (x.step .endItem) n ls ∧ (x.step .endItem).elements.map ParsedElement.core = x.flushed := by
  obtain ⟨h1, h2⟩ := h.flush
  exact ⟨⟨⟨h1.heading, h1.isCode, h1.language, h1.look, h1.inTable, h1.depth, h1.lists⟩, h2, rfl⟩, rfl⟩

mutual
theorem block_spec : ∀ (b : MdBlock) (x : MdSt) (n : Nat) (ls : List ListStyle), b.Good →
    (Idle x n ls → Idle (b.events.foldl step x) n ls ∧
      (b.events.foldl step x).elements.map ParsedElement.core = x.elements.map ParsedElement.core ++ b.elements n ls) ∧
    (b.isList = true → Weak x n ls → Weak (b.events.foldl step x) n ls ∧ (b.events.foldl step x).flushed = x.flushed ++ b.elements n ls)
  | .para xs, x, n, ls, hg => by
    rw [MdBlock.Good] at hg
    refine ⟨fun h => ?_, fun e => by cases e⟩
    obtain ⟨a1, a2⟩ := h.toWeak.para h.spans hg
    refine ⟨a1, ?_⟩
    rw [a2, List.map_append, MdBlock.elements, h.style]
    congr 1
    rw [List.map_map]
    rfl
  | .heading lv xs, x, n, ls, hg => by
    rw [MdBlock.Good] at hg
    refine ⟨fun h => ?_, fun e => by cases e⟩
    obtain ⟨a1, a2⟩ := h.heading' lv hg.1 hg.2
    refine ⟨a1, ?_⟩
    rw [a2, List.map_append, MdBlock.elements]
    rfl
  | .code fence ts, x, n, ls, hg => by
    refine ⟨fun h => ?_, fun e => by cases e⟩
    obtain ⟨a1, a2⟩ := h.code fence ts
    refine ⟨a1, ?_⟩
    rw [a2, List.map_append, MdBlock.elements]
    rfl
  | .table head rows, x, n, ls, hg => by
    rw [MdBlock.Good] at hg
    refine ⟨fun h => ?_, fun e => by cases e⟩
    obtain ⟨a1, a2⟩ := h.table head rows hg
    refine ⟨a1, ?_⟩
    rw [a2, List.map_append, MdBlock.elements]
    rfl
  | .other, x, n, ls, hg => by
    refine ⟨fun h => ⟨h, ?_⟩, fun e => by cases e⟩
    simp [MdBlock.events, MdBlock.elements, step]
  | .quote bs, x, n, ls, hg => by
    rw [MdBlock.Good] at hg
    refine ⟨fun h => ?_, fun e => by cases e⟩
    rw [MdBlock.events, List.foldl_cons, List.foldl_append, MdBlock.elements]
    have h1 : Idle (x.step .startQuote) (n + 1) ls :=
      ⟨⟨h.heading, h.isCode, h.language, h.look, h.inTable, by show x.quoteDepth + 1 = _; rw [h.depth], h.lists⟩, h.spans, h.style⟩
    obtain ⟨g1, g2⟩ := (blocks_spec bs (x.step .startQuote) (n + 1) ls hg).1 h1
    simp only [List.foldl_cons, List.foldl_nil]
    exact ⟨⟨⟨g1.heading, g1.isCode, g1.language, g1.look, g1.inTable, by show _ - 1 = n; rw [g1.depth]; rfl, g1.lists⟩, g1.spans, g1.style⟩, g2⟩
  | .list o items, x, n, ls, hg => by
    rw [MdBlock.Good] at hg
    rw [MdBlock.events, List.foldl_cons, List.foldl_append, MdBlock.elements]
    have key : Weak x n ls → Weak ((itemEvents items).foldl step (x.step (.startList o))) n (mdListStyle o :: ls) ∧
        ((itemEvents items).foldl step (x.step (.startList o))).flushed = x.flushed ++ itemElements n (mdListStyle o :: ls) items ∧
        (Idle x n ls → Idle ((itemEvents items).foldl step (x.step (.startList o))) n (mdListStyle o :: ls)) := by
      intro h
      have h1 : Weak (x.step (.startList o)) n (mdListStyle o :: ls) :=
        ⟨h.heading, h.isCode, h.language, h.look, h.inTable, h.depth, by show _ :: x.listStack = _; rw [h.lists]⟩
      obtain ⟨g1, g2, g3⟩ := items_spec items (x.step (.startList o)) n (mdListStyle o :: ls) hg h1
      have hf : (x.step (.startList o)).flushed = x.flushed := by
        unfold MdSt.flushed MdSt.flush
        show List.map _ (if x.spans = [] then _ else _ : MdSt).elements = _
        split <;> rfl
      exact ⟨g1, by rw [g2, hf], fun hi => g3 ⟨h1, hi.spans, hi.style⟩⟩
    have hend : ∀ y : MdSt, Weak y n (mdListStyle o :: ls) → Weak (y.step .endList) n ls ∧ (y.step .endList).flushed = y.flushed := by
      intro y hy
      refine ⟨⟨hy.heading, hy.isCode, hy.language, hy.look, hy.inTable, hy.depth, by show y.listStack.tail = _; rw [hy.lists]; rfl⟩, ?_⟩
      unfold MdSt.flushed MdSt.flush
      show List.map _ (if y.spans = [] then _ else _ : MdSt).elements = _
      split <;> rfl
    simp only [List.foldl_cons, List.foldl_nil]
    constructor
    · intro h
      obtain ⟨k1, k2, k3⟩ := key h.toWeak
      obtain ⟨m1, m2⟩ := hend _ k1
      have k4 := k3 h
      have hi : Idle (((itemEvents items).foldl step (x.step (.startList o))).step .endList) n ls := ⟨m1, k4.spans, k4.style⟩
      refine ⟨hi, ?_⟩
      rw [← hi.flushed, m2, k2, h.flushed]
    · intro _ h
      obtain ⟨k1, k2, _⟩ := key h
      obtain ⟨m1, m2⟩ := hend _ k1
      exact ⟨m1, by rw [m2, k2]⟩
theorem blocks_spec : ∀ (bs : List MdBlock) (x : MdSt) (n : Nat) (ls : List ListStyle), GoodBlocks bs →
    (Idle x n ls → Idle ((blockEvents bs).foldl step x) n ls ∧
      ((blockEvents bs).foldl step x).elements.map ParsedElement.core = x.elements.map ParsedElement.core ++ blockElements n ls bs) ∧
    ((∀ b ∈ bs, b.isList = true) → Weak x n ls → Weak ((blockEvents bs).foldl step x) n ls ∧
      ((blockEvents bs).foldl step x).flushed = x.flushed ++ blockElements n ls bs)
  | [], x, n, ls, _ => by
    simp [blockEvents, blockElements]
  | b :: bs, x, n, ls, hg => by
    rw [GoodBlocks] at hg
    rw [blockEvents, blockElements, List.foldl_append]
    constructor
    · intro h
      obtain ⟨a1, a2⟩ := (block_spec b x n ls hg.1).1 h
      obtain ⟨c1, c2⟩ := (blocks_spec bs _ n ls hg.2).1 a1
      exact ⟨c1, by rw [c2, a2, List.append_assoc]⟩
    · intro hl h
      obtain ⟨a1, a2⟩ := (block_spec b x n ls hg.1).2 (hl b (by simp)) h
      obtain ⟨c1, c2⟩ := (blocks_spec bs _ n ls hg.2).2 (fun b hb => hl b (List.mem_cons_of_mem _ hb)) a1
      exact ⟨c1, by rw [c2, a2, List.append_assoc]⟩
theorem item_spec : ∀ (i : MdItem) (x : MdSt) (n : Nat) (ls : List ListStyle), i.Good → Weak x n ls →
    Idle (i.events.foldl step x) n ls ∧ (i.events.foldl step x).flushed = x.flushed ++ i.elements n ls
  | .tight xs bs, x, n, ls, hg, h => by
    rw [MdItem.Good] at hg
    obtain ⟨h1, h2, h3, h4, h5, h6⟩ := h.startItem
    rw [MdItem.events, List.foldl_cons, List.foldl_append, List.foldl_append, h1.text h3 h2 hg.1]
    generalize hy : ({ x.step .startItem with
      elements := (x.step .startItem).elements ++ (linesOf xs).dropLast.map (x.step .startItem).lineBlock
      spans := (linesOf xs).getLast (linesOf_ne_nil xs) } : MdSt) = y
    have hyw : Weak y n ls := by
      subst hy
      exact ⟨h1.heading, h1.isCode, h1.language, h1.look, h1.inTable, h1.depth, h1.lists⟩
    obtain ⟨a1, a2⟩ := (blocks_spec bs y n ls hg.2.1).2 hg.2.2 hyw
    obtain ⟨b1, b2⟩ := a1.endItem
    simp only [List.foldl_cons, List.foldl_nil]
    refine ⟨b1, ?_⟩
    rw [b1.flushed, b2, a2, MdItem.elements, ← List.append_assoc]
    congr 1
    have hcore : ∀ l : List (List ParsedSpan), (l.map (x.step .startItem).lineBlock).map ParsedElement.core =
        l.map fun l => .block { spans := l, listStyle := ls.head?, listIndent := ls.length - 1, quoteDepth := n } := by
      intro l
      rw [List.map_map]
      apply List.map_congr_left
      intro a _
      show ((x.step .startItem).lineBlock a).core = _
      unfold lineBlock
      rw [h4, h5, h1.depth]
      exact core_item ls n a
    have hlast := List.getLast?_eq_some_getLast (l := linesOf xs) (linesOf_ne_nil xs)
    by_cases e : (linesOf xs).getLast (linesOf_ne_nil xs) = []
    · have f1 : fullLines xs = (linesOf xs).dropLast := by
        unfold fullLines
        rw [hlast, e]
        exact if_pos rfl
      have f2 : y.flush = y := if_pos (by subst hy; exact e)
      show y.flush.elements.map ParsedElement.core = x.flush.elements.map ParsedElement.core ++ _
      rw [f1, f2, ← hcore, ← h6, ← List.map_append]
      subst hy
      rfl
    · have f1 : fullLines xs = linesOf xs := by
        unfold fullLines
        rw [hlast]
        exact if_neg (fun e2 => e (Option.some.inj e2))
      have hn : y.spans ≠ [] := by subst hy; exact e
      have f2 : y.flush.elements = y.elements ++ [y.textBlock none] := by
        unfold MdSt.flush
        rw [if_neg hn]; rfl
      have hb : y.textBlock none = (x.step .startItem).lineBlock ((linesOf xs).getLast (linesOf_ne_nil xs)) := by
        subst hy; rfl
      have hye : y.elements = (x.step .startItem).elements ++ (linesOf xs).dropLast.map (x.step .startItem).lineBlock := by
        subst hy; rfl
      show y.flush.elements.map ParsedElement.core = x.flush.elements.map ParsedElement.core ++ _
      rw [f1, f2, hb, hye, List.append_assoc, map_last, ← hcore, ← h6, ← List.map_append]
  | .loose xs bs, x, n, ls, hg, h => by
    rw [MdItem.Good] at hg
    obtain ⟨h1, h2, h3, h4, h5, h6⟩ := h.startItem
    have he : (MdItem.loose xs bs).events = .startItem :: ((MdBlock.para xs).events ++ (blockEvents bs ++ [.endItem])) := by
      simp [MdItem.events, MdBlock.events]
    rw [he, List.foldl_cons, List.foldl_append, List.foldl_append]
    obtain ⟨p1, p2⟩ := h1.para h2 hg.1
    obtain ⟨a1, a2⟩ := (blocks_spec bs _ n ls hg.2).1 p1
    obtain ⟨b1, b2⟩ := a1.toWeak.endItem
    simp only [List.foldl_cons, List.foldl_nil]
    refine ⟨b1, ?_⟩
    rw [b1.flushed, b2, a1.flushed, a2, p2, h6, h4, h5, MdItem.elements, List.map_append, ← List.append_assoc]
    congr 2
    exact core_map _ (core_item ls n) _
theorem items_spec : ∀ (is : List MdItem) (x : MdSt) (n : Nat) (ls : List ListStyle), GoodItems is → Weak x n ls →
    Weak ((itemEvents is).foldl step x) n ls ∧ ((itemEvents is).foldl step x).flushed = x.flushed ++ itemElements n ls is ∧
      (Idle x n ls → Idle ((itemEvents is).foldl step x) n ls)
  | [], x, n, ls, _, h => by
    simp [itemEvents, itemElements, h]
  | i :: is, x, n, ls, hg, h => by
    rw [GoodItems] at hg
    rw [itemEvents, itemElements, List.foldl_append]
    obtain ⟨a1, a2⟩ := item_spec i x n ls hg.1 h
    obtain ⟨c1, c2, c3⟩ := items_spec is _ n ls hg.2 a1.toWeak
    exact ⟨c1, by rw [c2, a2, List.append_assoc], fun _ => c3 a1⟩
end

end MdSt
end Verif

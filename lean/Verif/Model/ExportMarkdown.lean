import Verif.Model.ExportHtml
/-
Markdown export: document_io/src/use_cases/export_markdown_uc.rs.  `none` is an error or a panic.
-/
namespace Verif
namespace Store

/-- Marks around a text, export_markdown_uc.rs L385-L399. -/
def mdMarks (f : CharFormat) (t : List Char) : List Char :=
  let t := if f.fontFamily = some "monospace" then '`' :: t ++ ['`'] else t
  let t := if f.fontStrikeout = some true then "~~".toList ++ t ++ "~~".toList else t
  let t := if f.fontBold = some true ∧ f.fontItalic = some true then "***".toList ++ t ++ "***".toList
    else if f.fontBold = some true then "**".toList ++ t ++ "**".toList
    else if f.fontItalic = some true then '*' :: t ++ ['*']
    else t
  match f.anchorHref with
  | some href => '[' :: t ++ "](".toList ++ href.toList ++ [')']
  | none => t

/-- One segment in the loop of `render_inline_segments`, L361-L402. -/
def mdSegment : Segment CharFormat → List Char
  | .image i => mdMarks i.fmt ("![".toList ++ i.name.toList ++ "](".toList ++ i.name.toList ++ [')'])
  | .text t f =>
    if t = [] then []
    else mdMarks f (if f.fontFamily = some "monospace" then t else escapeMarkdownExport t)

/-- `render_inline_segments` and `render_inline_markdown`, L358-L404 and L489-L502. -/
def inlineMarkdown (s : Store) (b : Block) : Option (List Char) :=
  (s.blockSegments b.id).map fun segs => segs.flatMap mdSegment

/-- `str::lines`: without the newlines, without a last empty line, and without a carriage return before a newline. -/
def rustLines (t : List Char) : List (List Char) :=
  let ls := splitLines t
  let ls := if ls.getLast? = some [] then ls.dropLast.map (fun l => (l, true)) else ls.dropLast.map (fun l => (l, true)) ++ (ls.getLast?.toList.map fun l => (l, false))
  ls.map fun (l, ended) => if ended ∧ l.getLast? = some '\r' then l.dropLast else l

/-- `prefix_lines`, L504-L510. -/
def prefixLines (pre t : List Char) : List Char := joinWith ['\n'] ((rustLines t).map fun l => pre ++ l)

/-- The mutable state of `render_frame_content`, L131-L134: the lines, whether the last block was a list item, the number of the last
numbered item and the list it belongs to. -/
structure MdLines where
  lines : List (List Char) := []
  wasList : Bool := false
  counter : Nat := 0
  list : Option Nat := none

/-- A separator if there is something before. -/
def MdLines.push (x : MdLines) (sep line : List Char) : MdLines :=
  { x with lines := x.lines ++ (if x.lines = [] then [line] else [sep, line]) }

/-- A code block, L259-L294; `pre` is the prefix of quotations. -/
def codeMarkdown (s : Store) (pre : List Char) (b : Block) : Option (List Char) :=
  (s.blockSegments b.id).map fun segs =>
    let lang := (b.fmtCodeLanguage.getD "").toList
    let raw := rawText segs
    if pre = [] then "```".toList ++ lang ++ '\n' :: raw ++ "\n```".toList
    else joinWith ['\n'] ([pre ++ "```".toList ++ lang] ++ (rustLines raw).map (fun l => pre ++ l) ++
      (if raw = [] then [pre] else []) ++ [pre ++ "```".toList])

/-- `x.repeat(n as usize)` with a signed `n`: a negative one asks for too much memory. -/
def repeatInt (x : List Char) (n : Int) : Option (List Char) :=
  if n < 0 then none else some (List.replicate n.toNat x).flatten

/-- `render_block_line`, L250-L356, and what its callers do with the line, L156-L166 and L231-L240. -/
def MdLines.block (s : Store) (pre : List Char) (x : MdLines) (b : Block) : Option MdLines :=
  if b.fmtIsCodeBlock = some true then
    (s.codeMarkdown pre b).map fun line =>
      { x.push "\n\n".toList line with wasList := false, counter := 0, list := none }
  else
    (s.inlineMarkdown b).bind fun inline =>
    let list := s.blockList b
    let sep := if list.isSome ∧ x.wasList then ['\n'] else "\n\n".toList
    match b.fmtHeadingLevel, list with
    | some level, _ =>
      (repeatInt ['#'] level).map fun hashes =>
        { x.push sep (pre ++ hashes ++ ' ' :: inline) with wasList := list.isSome }
    | none, some l =>
      (repeatInt [' ', ' '] l.indent).map fun indent =>
        if isOrdered l.style then
          let this := (s.blocks b.id).bind Block.list
          let n := if this = x.list then x.counter + 1 else 1
          { x.push sep (pre ++ indent ++ (toString n).toList ++ ". ".toList ++ inline) with wasList := true, counter := n, list := this }
        else { x.push sep (pre ++ indent ++ "- ".toList ++ inline) with wasList := true }
    | none, none =>
      some { x.push sep (pre ++ inline) with wasList := false, counter := 0, list := none }

/-- The content of a cell, L434-L453. -/
def cellMarkdown (s : Store) (cell : TableCell) : Option (List Char) :=
  match cell.cellFrame with
  | none => some []
  | some f =>
    (mapOpt s.inlineMarkdown (sortByKey Block.documentPosition (s.getBlocks (s.frameBlocks f)))).map fun xs =>
      joinWith [' '] (xs.filter fun x => x ≠ [])

/-- The text at a place of the grid, L426-L456.  A later cell at the same place overwrites an earlier one; the cells are sorted by row and
column in the code, stably, which does not change which one is the last. -/
def gridMarkdown (s : Store) (cells : List TableCell) (r c : Nat) : Option (List Char) :=
  match cells.reverse.find? fun cell => cell.row = (r : Int) ∧ cell.column = (c : Int) with
  | some cell => s.cellMarkdown cell
  | none => some []

/-- `render_table_markdown`, L406-L487. -/
def tableMarkdown (s : Store) (t : Nat) : Option (List Char) :=
  (s.tables t).bind fun table =>
  let cols := table.columns.toNat
  (mapOpt (fun r => mapOpt (fun c => s.gridMarkdown (s.tableCellsOf t) r c) (List.range cols)) (List.range table.rows.toNat)).map fun grid =>
    let row (cells : List (List Char)) : List Char := '|' :: cells.flatMap fun x => ' ' :: x ++ " |".toList
    joinWith ['\n'] (match grid with
      | [] => []
      | head :: rows => row head :: ('|' :: (List.replicate cols "---|".toList).flatten) :: rows.map row)

/-- `for &entry in &frame.child_order`, L140-L215; `sub` renders a sub-frame inside a prefix. -/
def childrenMarkdown (s : Store) (cells : List Nat) (pre : List Char) (sub : List Char → Nat → Option (List (List Char))) :
    List Int → MdLines → Option MdLines
  | [], x => some x
  | e :: es, x =>
    if e > 0 then
      match s.blocks e.toNat with
      | some b => (x.block s pre b).bind fun x => childrenMarkdown s cells pre sub es x
      | none => childrenMarkdown s cells pre sub es x
    else if (-e).toNat ∈ cells then childrenMarkdown s cells pre sub es x
    else match s.frames (-e).toNat with
      | none => childrenMarkdown s cells pre sub es x
      | some fr =>
        (match fr.table with
          | some t => (s.tableMarkdown t).map fun md =>
              x.push "\n\n".toList (if pre = [] then md else prefixLines pre md)
          | none =>
            (sub (if fr.fmtIsBlockquote = some true then pre ++ "> ".toList else pre) (-e).toNat).map fun ls =>
              List.foldl (fun (x : MdLines) l => x.push "\n\n".toList l) x ls).bind fun x =>
        childrenMarkdown s cells pre sub es { x with wasList := false, counter := 0, list := none }

/-- `render_frame_content`, L120-L246.  `fuel` bounds the nesting of frames (the code would overflow its stack). -/
def frameMarkdown (s : Store) (cells : List Nat) : Nat → List Char → Nat → Option (List (List Char))
  | 0, _, _ => none
  | n + 1, pre, f =>
    match s.frames f with
    | none => some []
    | some frame =>
      if frame.childOrder = [] then
        ((sortByKey Block.documentPosition (s.getBlocks (s.frameBlocks f))).foldlM (fun (x : MdLines) b => x.block s pre b) {}).map MdLines.lines
      else (childrenMarkdown s cells pre (frameMarkdown s cells n) frame.childOrder {}).map MdLines.lines

/-- One frame of the document, L86-L109. -/
def topMarkdown (s : Store) (cells : List Nat) (f : Nat) : Option (List (List Char)) :=
  match (s.frames f).bind Frame.table with
  | some t => (s.tableMarkdown t).map fun md => [md]
  | none => frameMarkdown s cells (s.frames.keys.length + 1) [] f

/-- `ExportMarkdownUseCase::execute`, L40-L118. -/
def exportMarkdown (s : Store) : Option (List Char) :=
  s.docId.bind fun did =>
  let cells := s.cellFrameIds did
  let fids := (s.docFrames did).filter fun f => f ∉ cells
  (mapOpt (topMarkdown s cells) fids).map fun parts => joinWith "\n\n".toList parts.flatten

end Store
end Verif

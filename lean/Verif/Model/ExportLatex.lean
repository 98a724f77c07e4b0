import Verif.Model.ExportHtml
/-
LaTeX export of a document: crates/document_io/src/use_cases/export_latex_uc.rs (`TextDocument::to_latex`).
`none` is an error or a panic.  The notation of a line height (`format!("{:.2}", lh as f64 / 1000.0)`) is a
parameter `num`.
-/
namespace Verif
namespace Store

/-- `format!("\\{cmd}{{{body}}}")`. -/
def texCmd (cmd : String) (body : List Char) : List Char := '\\' :: cmd.toList ++ '{' :: body ++ ['}']

/-- The formats around a text, L384-L401. -/
def latexMarks (f : CharFormat) (t : List Char) : List Char :=
  let t := if f.fontFamily = some "monospace" then texCmd "texttt" t else t
  let t := if f.fontBold = some true then texCmd "textbf" t else t
  let t := if f.fontItalic = some true then texCmd "textit" t else t
  let t := if f.fontUnderline = some true then texCmd "underline" t else t
  let t := if f.fontStrikeout = some true then texCmd "sout" t else t
  match f.anchorHref with
  | some href => texCmd "href" (escapeLatex href.toList) ++ '{' :: t ++ ['}']
  | none => t

/-- One segment in the loop of `render_inline_latex`, L361-L402.  An escaped text never starts with
`\includegraphics`. -/
def latexSegment : Segment CharFormat → List Char
  | .image i => texCmd "includegraphics" (escapeLatex i.name.toList)
  | .text t f => if t = [] then [] else latexMarks f (escapeLatex t)

/-- `render_inline_latex`, L347-L405. -/
def inlineLatex (s : Store) (b : Block) : Option (List Char) :=
  (s.blockSegments b.id).map fun segs => segs.flatMap latexSegment

/-- `render_raw_text`, L323-L345: the text, with the names of the images. -/
def rawNamed (segs : List (Segment CharFormat)) : List Char :=
  segs.flatMap fun
    | .text t _ => t
    | .image i => i.name.toList

/-- `format!("\\begin{{{env}}}\n{body}\n\\end{{{env}}}")`. -/
def texEnv (env : String) (body : List Char) : List Char :=
  texCmd "begin" env.toList ++ '\n' :: body ++ '\n' :: texCmd "end" env.toList

/-- A code block, L271-L278. -/
def codeLatex (s : Store) (b : Block) : Option (List Char) :=
  (s.blockSegments b.id).map fun segs => texEnv "verbatim" (rawNamed segs)

/-- The command of a heading level, L283-L288. -/
def headingCmd (level : Int) : String :=
  if level = 1 then "section" else if level = 2 then "subsection" else if level = 3 then "subsubsection" else "paragraph"

/-- A paragraph or heading, L279-L314. -/
def paraLatex (num : Int → List Char) (s : Store) (b : Block) : Option (List Char) :=
  (s.inlineLatex b).map fun inline =>
    let t := match b.fmtHeadingLevel with
      | some l => texCmd (headingCmd l) inline
      | none => inline
    let t := match b.fmtLineHeight with
      | some lh => '{' :: texCmd "setstretch" (num lh) ++ t ++ ['}']
      | none => t
    let t := if b.fmtDirection = some .rightToLeft then texCmd "RL" t else t
    let t := match b.fmtBackgroundColor with
      | some c => texCmd "colorbox" c.toList ++ '{' :: texCmd "parbox" "\\linewidth".toList ++ '{' :: t ++ ['}', '}']
      | none => t
    if b.fmtNonBreakableLines = some true then texCmd "mbox" t else t

/-- The items of a list: the blocks up to the first without a list, L242-L262.  Returns the items and the other
blocks. -/
def latexItems (s : Store) : List Block → Option (List (List Char) × List Block)
  | [] => some ([], [])
  | b :: bs =>
    if (s.blockList b).isSome then
      (s.inlineLatex b).bind fun inline =>
        (latexItems s bs).map fun (items, rest) => (("\\item ".toList ++ inline) :: items, rest)
    else some ([], b :: bs)

/-- `render_blocks_latex`, L208-L318: the loop, `fuel` being at least the number of blocks left. -/
def blocksLatex (num : Int → List Char) (s : Store) : Nat → List Block → Option (List (List Char))
  | 0, _ => some []
  | _ + 1, [] => some []
  | n + 1, b :: bs =>
    match s.blockList b with
    | some l =>
      (s.latexItems (b :: bs)).bind fun (items, rest) =>
      let env := if isOrdered l.style then "enumerate" else "itemize"
      (blocksLatex num s n rest).map fun y => texEnv env (joinWith ['\n'] items) :: y
    | none =>
      if b.fmtIsCodeBlock = some true then
        (s.codeLatex b).bind fun x => (blocksLatex num s n bs).map fun y => x :: y
      else (paraLatex num s b).bind fun x => (blocksLatex num s n bs).map fun y => x :: y

/-- The content of a cell, L448-L466. -/
def cellLatex (s : Store) (cell : TableCell) : Option (List Char) :=
  match cell.cellFrame with
  | none => some []
  | some f =>
    (mapOpt s.inlineLatex (s.getBlocks (s.frameBlocks f))).map fun xs => joinWith [' '] (xs.filter fun x => x ≠ [])

/-- A cell with its spans, L469-L494. -/
def spanLatex (cell : TableCell) (t : List Char) : List Char :=
  let cols := texCmd "multicolumn" (showInt cell.columnSpan) ++ "{|l|}{".toList
  let rows := texCmd "multirow" (showInt cell.rowSpan) ++ "{*}{".toList
  if cell.rowSpan > 1 ∧ cell.columnSpan > 1 then cols ++ rows ++ t ++ ['}', '}']
  else if cell.columnSpan > 1 then cols ++ t ++ ['}']
  else if cell.rowSpan > 1 then rows ++ t ++ ['}']
  else t

/-- The cells of one row from column `c` on, L433-L513; `covered` are the places covered by a spanning cell.  The loop
goes on behind the columns of a cell (`c += column_span`); `fuel` is at least the number of columns left (a cell without
columns would loop for ever). -/
def rowLatex (s : Store) (cells : List TableCell) (rows cols r : Nat) :
    Nat → Nat → List (Nat × Nat) → Option (List (List Char) × List (Nat × Nat))
  | 0, _, covered => some ([], covered)
  | n + 1, c, covered =>
    if c ≥ cols then some ([], covered)
    else if (r, c) ∈ covered then rowLatex s cells rows cols r n (c + 1) covered
    else match cells.find? fun cell => cell.row = (r : Int) ∧ cell.column = (c : Int) with
      | some cell =>
        (s.cellLatex cell).bind fun x =>
        let new := (List.range cell.rowSpan.toNat).flatMap fun sr =>
          (List.range cell.columnSpan.toNat).filterMap fun sc =>
            if sr = 0 ∧ sc = 0 then none
            else if r + sr < rows ∧ c + sc < cols then some (r + sr, c + sc) else none
        (rowLatex s cells rows cols r n (c + cell.columnSpan.toNat) (new ++ covered)).map fun (y, cov) => (spanLatex cell x :: y, cov)
      | none => (rowLatex s cells rows cols r n (c + 1) covered).map fun (y, cov) => ([] :: y, cov)

/-- The rows from `r` on, L432-L515. -/
def rowsLatex (s : Store) (cells : List TableCell) (rows cols : Nat) :
    Nat → Nat → List (Nat × Nat) → Option (List Char)
  | 0, _, _ => some []
  | n + 1, r, covered =>
    (rowLatex s cells rows cols r cols 0 covered).bind fun (xs, covered) =>
    (rowsLatex s cells rows cols n (r + 1) covered).map fun y =>
      '\n' :: joinWith " & ".toList xs ++ " \\\\\n\\hline".toList ++ y

/-- `render_table_latex`, L407-L519. -/
def tableLatex (s : Store) (t : Nat) : Option (List Char) :=
  (s.tables t).bind fun table =>
  let cols := table.columns.toNat
  (rowsLatex s (s.tableCellsOf t) table.rows.toNat cols table.rows.toNat 0 []).map fun x =>
    texCmd "begin" "tabular".toList ++ '{' :: '|' :: joinWith ['|'] (List.replicate cols ['l']) ++ "|}\n\\hline".toList ++ x ++
      '\n' :: texCmd "end" "tabular".toList

/-- `for &order_val in &frame.child_order`, L160-L190; `own` are the blocks of the frame, `pending` the accumulated ones and
`sub` renders a sub-frame. -/
def childrenLatex (num : Int → List Char) (s : Store) (cells : List Nat) (own : List Block) (sub : Nat → Option (List Char)) :
    List Int → List Block → Option (List (List Char))
  | [], pending => blocksLatex num s pending.length pending
  | e :: es, pending =>
    if e > 0 then
      match own.find? fun b => b.id = e.toNat with
      | some b => childrenLatex num s cells own sub es (pending ++ [b])
      | none => childrenLatex num s cells own sub es pending
    else
      (blocksLatex num s pending.length pending).bind fun x =>
      if (-e).toNat ∈ cells then (childrenLatex num s cells own sub es []).map fun y => x ++ y
      else
        (sub (-e).toNat).bind fun inner =>
        (childrenLatex num s cells own sub es []).map fun y => x ++ (if inner = [] then [] else [inner]) ++ y

/-- `render_frame_latex`, L118-L205.  `fuel` bounds the nesting of frames (the code would overflow its stack). -/
def frameLatex (num : Int → List Char) (s : Store) (cells : List Nat) : Nat → Nat → Option (List Char)
  | 0, _ => none
  | n + 1, f =>
    match s.frames f with
    | none => some []
    | some frame =>
      match frame.table with
      | some t => s.tableLatex t
      | none =>
        let own := s.getBlocks (s.frameBlocks f)
        (if frame.childOrder = [] then
          let bs := sortByKey Block.documentPosition own
          blocksLatex num s bs.length bs
        else childrenLatex num s cells own (frameLatex num s cells n) frame.childOrder []).map fun parts =>
        if parts = [] then []
        else if frame.fmtIsBlockquote = some true then texEnv "quote" (joinWith "\n\n".toList parts)
        else joinWith "\n\n".toList parts

/-- The packages of the preamble, L109. -/
def texPackages : List String := ["hyperref", "ulem", "graphicx", "setspace", "xcolor"]

/-- `ExportLatexUseCase::execute`, L42-L116; `class_` is the document class if the preamble is wanted. -/
def exportLatex (num : Int → List Char) (class_ : Option (List Char)) (s : Store) : Option (List Char) :=
  s.docId.bind fun did =>
  let cells := s.cellFrameIds did
  let fids := (s.docFrames did).filter fun f => f ∉ cells
  (mapOpt (frameLatex num s cells (s.frames.keys.length + 1)) fids).map fun parts =>
    let body := joinWith "\n\n".toList (parts.filter fun x => x ≠ [])
    match class_ with
    | none => body
    | some c => texCmd "documentclass" (if c = [] then "article".toList else c) ++
        texPackages.flatMap (fun p => '\n' :: texCmd "usepackage" p.toList) ++
        '\n' :: texCmd "begin" "document".toList ++ "\n\n".toList ++ body ++ "\n\n".toList ++ texCmd "end" "document".toList

end Store
end Verif

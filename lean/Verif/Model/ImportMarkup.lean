import Verif.Model.TableCommands
import Verif.Model.ListCommands
/-
Loading Markdown or HTML once it is parsed: document_io/src/use_cases/{import_markdown,import_html}_uc.rs,
common/src/parser_tools/content_parser.rs (the parsed elements and their formats), list_grouper.rs, and
public_api/src/document.rs (`set_markdown`, `set_html`).  The two importers differ in three places, marked
`html` below.  `none` is an error.  Left out: progress reports, cancelling, the transaction (C27) and the
thread the import runs on (C33–C35); `i64` and `u32` arithmetic does not overflow.
-/
namespace Verif

/-- `ParsedSpan`, content_parser.rs L4-L13. -/
structure ParsedSpan where
  text : List Char
  bold : Bool := false
  italic : Bool := false
  underline : Bool := false
  strikeout : Bool := false
  code : Bool := false
  linkHref : Option String := none
deriving DecidableEq, Repr

/-- `ParsedBlock`, content_parser.rs L89-L102. -/
structure ParsedBlock where
  spans : List ParsedSpan := []
  headingLevel : Option Int := none
  listStyle : Option ListStyle := none
  listIndent : Nat := 0
  isCodeBlock : Bool := false
  codeLanguage : Option String := none
  quoteDepth : Nat := 0
  lineHeight : Option Int := none
  nonBreakableLines : Option Bool := none
  direction : Option TextDirection := none
  backgroundColor : Option String := none
deriving DecidableEq, Repr

/-- `ParsedElement`, content_parser.rs L15-L36; a table is its rows, a cell its spans (`header_rows` is not
used by the importers). -/
inductive ParsedElement where
  | block (b : ParsedBlock)
  | table (rows : List (List (List ParsedSpan)))
deriving DecidableEq, Repr

/-- `character_format_from_span`, content_parser.rs L1095-L1116. -/
def spanFormat (code : Bool) (x : ParsedSpan) : CharFormat :=
  { fontBold := if x.bold then some true else none
    fontItalic := if x.italic then some true else none
    fontUnderline := if x.underline then some true else none
    fontStrikeout := if x.strikeout then some true else none
    fontFamily := if x.code || code then some "monospace" else none
    anchorHref := x.linkHref
    isAnchor := if x.linkHref.isSome then some true else none }

/-- The loop of `format_runs_from_spans`, content_parser.rs L1140-L1156; `off` is the length of the text so
far. -/
def spanRuns (code : Bool) : Nat → List ParsedSpan → List (Run CharFormat)
  | _, [] => []
  | off, x :: xs =>
    if utf8Len x.text = 0 then spanRuns code off xs
    else if spanFormat code x = {} then spanRuns code (off + utf8Len x.text) xs
    else ⟨off, off + utf8Len x.text, spanFormat code x⟩ :: spanRuns code (off + utf8Len x.text) xs

/-- `format_runs_from_spans`, content_parser.rs L1130-L1159: the text and its runs. -/
def formatRunsFromSpans (code : Bool) (xs : List ParsedSpan) : List Char × List (Run CharFormat) :=
  (xs.flatMap ParsedSpan.text, coalesce (spanRuns code 0 xs))

/-- The variables of the import loop, import_html_uc.rs L128-L147: the open frames with their orders, the
innermost first, `current_bq_depth`, the list grouper, `emitted_any_main_block`, `document_position`,
`total_chars` and `total_block_count`. -/
structure ImportSt where
  stack : List (Nat × List Int)
  depth : Nat := 0
  grouper : ListGrouper := []
  emitted : Bool := false
  position : Int := 0
  chars : Int := 0
  count : Int := 0

/-- One more entry in the order of the innermost frame, e.g. import_html_uc.rs L267-L271. -/
def ImportSt.push (x : ImportSt) (e : Int) : ImportSt :=
  match x.stack with
  | (f, order) :: rest => { x with stack := (f, order ++ [e]) :: rest }
  | [] => x

namespace Store

/-- The innermost frame is closed: its order is stored, import_html_uc.rs L161-L166. -/
def closeFrame (s : Store) (fid : Nat) (order : List Int) : Option Store :=
  (s.frames fid).map fun fr => s.updateFrame { fr with childOrder := order }

/-- Closing block quotes, import_html_uc.rs L160-L169. -/
def closeQuotes (bq : Nat) : List (Nat × List Int) → Nat → ListGrouper → Store →
    Option (List (Nat × List Int) × Nat × ListGrouper × Store)
  | (fid, order) :: p :: rest, depth, g, s =>
    if bq < depth then
      (s.closeFrame fid order).bind fun s => closeQuotes bq (p :: rest) (depth - 1) g.reset s
    else some ((fid, order) :: p :: rest, depth, g, s)
  | stack, depth, g, s => some (stack, depth, g, s)

/-- Opening `n` block quotes, import_html_uc.rs L172-L192; `none` also for an empty stack (a panic). -/
def openQuotes (did : Nat) : Nat → List (Nat × List Int) → Nat → ListGrouper → Store →
    Option (List (Nat × List Int) × Nat × ListGrouper × Store)
  | 0, stack, depth, g, s => some (stack, depth, g, s)
  | _ + 1, [], _, _, _ => none
  | n + 1, (fid, order) :: rest, depth, g, s =>
    (s.createFrame { fmtIsBlockquote := some true, fmtPosition := some .inFlow, parentFrame := some fid }
      did (-1)).bind fun (q, s) =>
    openQuotes did n ((q, []) :: (fid, order ++ [-(q : Int)]) :: rest) (depth + 1) g.reset s

/-- The runs of a block are stored, import_html_uc.rs L227-L235. -/
def putRuns (s : Store) (id : Nat) (runs : List (Run CharFormat)) : Store :=
  { s with formatRuns := if runs = [] then s.formatRuns.erase id else s.formatRuns.insert id runs }

/-- A block with its text and runs at the end of the frame `fid` and of the text, import_html_uc.rs
L215-L235 and (the two last steps in the other order, they touch different tables) L316-L337. -/
def addParagraph (s : Store) (fid : Nat) (blk : Block) (boundary : Bool)
    (content : List Char × List (Run CharFormat)) : Option (Nat × Store) :=
  (s.createBlock blk fid (-1)).map fun (id, s) =>
    let r := if boundary then ropeInsertBlockBoundary s.text else s.text
    (id, (s.withText (ropeAppendBlock r id content.1)).putRuns id content.2)

/-- The list of the new block, import_html_uc.rs L238-L265. -/
def joinList (s : Store) (did id : Nat) (g : ListGrouper) (style : Option ListStyle) (indent : Nat) :
    Option (ListGrouper × Store) :=
  match style with
  | none => some (g.reset, s)
  | some style =>
    match g.tryReuse style indent with
    | (g, some lid) => (s.setBlockList id (some lid)).map fun s => (g, s)
    | (g, none) =>
      (s.createListEntity { style := style, indent := (indent : Int) } did (-1)).bind fun (lid, s) =>
      (s.setBlockList id (some lid)).map fun s => (g.register lid style indent, s)

/-- The block entity of a parsed block, import_html_uc.rs L199-L213, import_markdown_uc.rs L186-L196: the
Markdown importer leaves four fields out. -/
def parsedBlockEntity (html : Bool) (pos : Int) (b : ParsedBlock) : Block :=
  { documentPosition := pos
    fmtHeadingLevel := b.headingLevel
    fmtLineHeight := if html then b.lineHeight else none
    fmtNonBreakableLines := if html then b.nonBreakableLines else none
    fmtDirection := if html then b.direction else none
    fmtBackgroundColor := if html then b.backgroundColor else none
    fmtIsCodeBlock := if b.isCodeBlock then some true else none
    fmtCodeLanguage := b.codeLanguage }

/-- A parsed block in the innermost frame, import_html_uc.rs L194-L278; `last` tells whether it is the
last element. -/
def placeBlock (html : Bool) (did : Nat) (last : Bool) (x : ImportSt) (b : ParsedBlock) (s : Store) :
    Option (ImportSt × Store) :=
  x.stack.head?.bind fun (fid, _) =>
  let content := formatRunsFromSpans b.isCodeBlock b.spans
  (s.addParagraph fid (parsedBlockEntity html x.position b) x.emitted content).bind fun (id, s) =>
  (s.joinList did id x.grouper b.listStyle b.listIndent).map fun (g, s) =>
  (({ x with
    grouper := g
    emitted := true
    position := x.position + content.1.length + (if last then 0 else 1)
    chars := x.chars + content.1.length
    count := x.count + 1 } : ImportSt).push (id : Int), s)

/-- A parsed block, import_html_uc.rs L156-L279. -/
def importBlock (html : Bool) (did : Nat) (last : Bool) (x : ImportSt) (b : ParsedBlock) (s : Store) :
    Option (ImportSt × Store) :=
  (closeQuotes b.quoteDepth x.stack x.depth x.grouper s).bind fun (stack, depth, g, s) =>
  (openQuotes did (b.quoteDepth - depth) stack depth g s).bind fun (stack, depth, g, s) =>
  placeBlock html did last { x with stack := stack, depth := depth, grouper := g } b s

/-- The cells of a parsed table with their places, import_html_uc.rs L308-L309. -/
def placedCells (rows : List (List (List ParsedSpan))) : List (Nat × Nat × List ParsedSpan) :=
  rows.zipIdx.flatMap fun (row, r) => row.zipIdx.map fun (cell, c) => (r, c, cell)

/-- The loop over the cells, import_html_uc.rs L308-L362: the frames of the cells, and the position and
number of characters after them; `cell_count` starts at `n`. -/
def importCells (did tid : Nat) (total : Int) : Int → Int → List (Nat × Nat × List ParsedSpan) → Store →
    Option (List Nat × Int × Int × Store)
  | _, pos, [], s => some ([], pos, 0, s)
  | n, pos, (r, c, spans) :: l, s =>
    let content := formatRunsFromSpans false spans
    (s.createFrame {} did (-1)).bind fun (g, s) =>
    (s.frames g).bind fun created =>
    (s.addParagraph g { documentPosition := pos } true content).bind fun (b, s) =>
    let s := s.updateFrame { created with childOrder := [(b : Int)] }
    (s.createCell (newCell (0, g) r c 1 1) tid (-1)).bind fun (_, s) =>
    (importCells did tid total (n + 1)
      (pos + content.1.length + (if n + 1 < total then 1 else 0)) l s).map fun (gs, pos, chars, s) =>
    (g :: gs, pos, content.1.length + chars, s)

/-- The cell frames get the anchor frame as parent, import_markdown_uc.rs L366-L376. -/
def adoptCells (anchor : Nat) (gs : List Nat) (s : Store) : Store :=
  gs.foldl (fun s g => match s.frames g with
    | some fr => s.updateFrameRel { fr with parentFrame := some anchor }
    | none => s) s

/-- A parsed table, import_html_uc.rs L281-L387, import_markdown_uc.rs L264-L395: only the Markdown importer
gives the cell frames their parent. -/
def importTable (html : Bool) (did : Nat) (last : Bool) (x : ImportSt) (rows : List (List (List ParsedSpan)))
    (s : Store) : Option (ImportSt × Store) :=
  let x := { x with grouper := x.grouper.reset }
  let columns := (rows.head?.map List.length).getD 0
  if rows.length = 0 ∨ columns = 0 then some (x, s)
  else
    (s.createTable { rows := (rows.length : Int), columns := (columns : Int) } did (-1)).bind fun (tid, s) =>
    let s := s.withText (ropeAppendTableAnchor s.text tid)
    x.stack.head?.bind fun (fid, _) =>
    (importCells did tid ((rows.length : Int) * (columns : Int)) 0 x.position (placedCells rows) s).bind
      fun (gs, pos, chars, s) =>
    (s.createFrame { parentFrame := some fid, table := some tid } did (-1)).map fun (a, s) =>
    let s := if html then s else adoptCells a gs s
    (({ x with
      emitted := true
      position := pos + (if last then 0 else 1)
      chars := x.chars + chars
      count := x.count + ((placedCells rows).length : Int) } : ImportSt).push (-(a : Int)), s)

/-- One element. -/
def importElement (html : Bool) (did : Nat) (last : Bool) (x : ImportSt) : ParsedElement → Store →
    Option (ImportSt × Store)
  | .block b, s => importBlock html did last x b s
  | .table rows, s => importTable html did last x rows s

/-- The loop over the elements, import_html_uc.rs L149-L397. -/
def importLoop (html : Bool) (did : Nat) : ImportSt → List ParsedElement → Store → Option (ImportSt × Store)
  | x, [], s => some (x, s)
  | x, e :: es, s =>
    (importElement html did es.isEmpty x e s).bind fun (x, s) => importLoop html did x es s

/-- The frames still open get their orders, import_html_uc.rs L400-L415. -/
def closeAll : List (Nat × List Int) → Store → Option Store
  | [], s => some s
  | (fid, order) :: rest, s => (s.closeFrame fid order).bind fun s => closeAll rest s

/-- `execute` of the importers after parsing, import_html_uc.rs L86-L423, import_markdown_uc.rs L60-L435: the
number of blocks. -/
def importElements (html : Bool) (s : Store) (es : List ParsedElement) : Option (Int × Store) :=
  s.docId.bind fun did =>
  (removeFrames (s.docFrames did) s).bind fun s =>
  (s.createFrame {} did (-1)).bind fun (fid, s) =>
  let s := s.withText ropeReset
  (importLoop html did { stack := [(fid, [])] } es s).bind fun (x, s) =>
  (closeAll x.stack s).bind fun s =>
  (s.documents did).map fun doc =>
    (x.count, s.updateDocument { doc with characterCount := x.chars, blockCount := x.count })

end Store

/-- `TextDocument::set_markdown` and `set_html` once the import is done, document.rs L193-L250: the undo history
is not touched. -/
def Session.setElements (e : Session) (html : Bool) (es : List ParsedElement) : Option Session :=
  (e.store.importElements html es).map fun r => { e with store := r.2 }

end Verif

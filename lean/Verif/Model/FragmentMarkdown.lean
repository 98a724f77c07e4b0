import Verif.Model.FragmentText
import Verif.Model.ExportMarkdown
/-
`DocumentFragment::to_markdown`: public_api/src/fragment.rs.
-/
namespace Verif
namespace Store

/-- One element in the loop of `render_inline_markdown`, L538-L577. -/
def fragMdSegment (g : Segment CharFormat) : List Char :=
  let raw := match g with
    | .text t _ => t
    | .image i => "![".toList ++ i.name.toList ++ "](".toList ++ i.name.toList ++ [')']
  let f := match g with
    | .text _ f => f
    | .image i => i.fmt
  if f.fontFamily = some "monospace" then '`' :: raw ++ ['`']
  else
    let t := escapeMarkdownFragment raw
    let t := if f.fontBold = some true ∧ f.fontItalic = some true then "***".toList ++ t ++ "***".toList
      else if f.fontBold = some true then "**".toList ++ t ++ "**".toList
      else if f.fontItalic = some true then '*' :: t ++ ['*']
      else t
    let t := if f.fontStrikeout = some true then "~~".toList ++ t ++ "~~".toList else t
    if f.isAnchor = some true then '[' :: t ++ "](".toList ++ (f.anchorHref.getD "").toList ++ [')'] else t

/-- `render_inline_markdown`, L536-L579. -/
def fragMdInline (elements : List (Segment CharFormat)) : List Char := elements.flatMap fragMdSegment

/-- The text of a cell in `render_table_markdown`, L586-L591. -/
def fragMdCell (c : FragCell) : List Char := joinWith [' '] (c.blocks.map fun b => fragMdInline b.elements)

/-- The text at a place of the grid, L583-L595: a later cell overwrites an earlier one. -/
def fragMdAt (t : FragTable) (r c : Nat) : List Char :=
  match t.cells.reverse.find? fun x => x.row = r ∧ x.column = c with
  | some x => fragMdCell x
  | none => []

/-- One row, L599-L601. -/
def fragMdRow (cells : List (List Char)) : List Char := "| ".toList ++ joinWith " | ".toList cells ++ " |".toList

/-- `render_table_markdown`, L582-L615. -/
def fragMdTable (t : FragTable) : List Char :=
  let row (r : Nat) : List Char := fragMdRow ((List.range t.columns).map fun c => fragMdAt t r c)
  match t.rows with
  | 0 => []
  | n + 1 => joinWith ['\n'] (row 0 :: ('|' :: (List.replicate t.columns " --- |".toList).flatten) :: (List.range n).map fun r => row (r + 1))

/-- The mutable state of `to_markdown`, L237-L239: the parts, each with whether it is a list item. -/
structure FragMd where
  parts : List (List Char × Bool) := []
  wasList : Bool := false
  counter : Nat := 0

/-- A table, L251-L254 and L303. -/
def FragMd.table (x : FragMd) (t : FragTable) : FragMd := ⟨x.parts ++ [(fragMdTable t, false)], false, 0⟩

/-- `indent_prefix`, L261-L264. -/
def fragMdIndent (f : Block) : List Char :=
  match f.fmtIndent with
  | some n => if n > 0 then (List.replicate n.toNat "  ".toList).flatten else []
  | none => []

/-- A block, L258-L298.  The counter is a `u32` in the code; here it does not overflow. -/
def FragMd.block (x : FragMd) (b : FragBlock) : FragMd :=
  let inline := fragMdInline b.elements
  let indent := fragMdIndent b.format
  match b.format.fmtHeadingLevel, b.list with
  | some level, _ => ⟨x.parts ++ [(List.replicate (max 1 (min 6 level)).toNat '#' ++ ' ' :: inline, false)], false, 0⟩
  | none, some l =>
    let n := if x.wasList then x.counter else 0
    if isOrdered l.style then
      ⟨x.parts ++ [(indent ++ (toString (n + 1)).toList ++ ". ".toList ++ inline, true)], true, n + 1⟩
    else ⟨x.parts ++ [(indent ++ "- ".toList ++ inline, true)], true, n⟩
  | none, none => ⟨x.parts ++ [(indent ++ inline, false)], false, 0⟩

/-- The loop over the blocks, L246-L299, and the tables left over, L302-L305; `i` is the number of the block, `ts` the tables not written
yet in order. -/
def fragMdParts : Nat → List FragBlock → List FragTable → FragMd → FragMd
  | _, [], ts, x => ts.foldl FragMd.table x
  | i, b :: bs, ts, x =>
    fragMdParts (i + 1) bs (ts.dropWhile fun t => t.index ≤ i) (((ts.takeWhile fun t => t.index ≤ i).foldl FragMd.table x).block b)

/-- The join, L308-L319. -/
def fragMdJoin : List (List Char × Bool) → List Char
  | [] => []
  | [p] => p.1
  | p :: q :: ps => p.1 ++ (if p.2 ∧ q.2 then ['\n'] else "\n\n".toList) ++ fragMdJoin (q :: ps)

/-- `to_markdown`, L227-L322. -/
def Fragment.toMarkdown (fr : Fragment) : List Char :=
  match fr.data with
  | none => []
  | some (bs, ts) => fragMdJoin (fragMdParts 0 bs (sortByKey (fun t => (t.index : Int)) ts) {}).parts

end Store
end Verif

import Verif.Model.Entities
import Verif.Model.Sort
/-
Lists: markers and item numbers (public_api/src/text_block.rs), element ids (format_runs.rs), and the
grouping of list items during import (common/src/parser_tools/list_grouper.rs).
-/
namespace Verif

/-- `while n >= val { result.push_str(sym); n -= val; }`, text_block.rs L830-L833, for at most `fuel`
rounds; `n` rounds always suffice. -/
def romanDrain (val : Nat) (sym : List Char) : Nat → Nat → List Char × Nat
  | 0, n => ([], n)
  | fuel + 1, n =>
    if n ≥ val then
      let rest := romanDrain val sym fuel (n - val)
      (sym ++ rest.1, rest.2)
    else ([], n)

/-- The table `VALUES`, text_block.rs L813-L827. -/
def romanTable : List (Nat × List Char) :=
  [(1000, ['M']), (900, ['C', 'M']), (500, ['D']), (400, ['C', 'D']), (100, ['C']), (90, ['X', 'C']),
   (50, ['L']), (40, ['X', 'L']), (10, ['X']), (9, ['I', 'X']), (5, ['V']), (4, ['I', 'V']), (1, ['I'])]

/-- The loop over the table, text_block.rs L829-L834. -/
def romanLoop : List (Nat × List Char) → Nat → List Char
  | [], _ => []
  | (val, sym) :: t, n =>
    (romanDrain val sym n n).1 ++ romanLoop t (romanDrain val sym n n).2

/-- `to_roman_upper`, text_block.rs L812-L836. -/
def toRomanUpper (n : Nat) : List Char := romanLoop romanTable n

/-- `to_roman_lower`, text_block.rs L838-L840; only ASCII letters occur. -/
def toRomanLower (n : Nat) : List Char := (toRomanUpper n).map Char.toLower

/-- `marker_body` of `format_list_marker`, text_block.rs L786-L808. -/
def markerBody (style : ListStyle) (number : Nat) : List Char :=
  match style with
  | .disc => ['•']
  | .circle => ['◦']
  | .square => ['▪']
  | .decimal => Nat.toDigits 10 number
  | .lowerAlpha => if number ≤ 26 then [Char.ofNat (97 + (number - 1))] else Nat.toDigits 10 number
  | .upperAlpha => if number ≤ 26 then [Char.ofNat (65 + (number - 1))] else Nat.toDigits 10 number
  | .lowerRoman => toRomanLower number
  | .upperRoman => toRomanUpper number

/-- `format_list_marker`, text_block.rs L782-L810. -/
def formatListMarker (l : TList) (itemIndex : Nat) : List Char :=
  l.pre.toList ++ markerBody l.style (itemIndex + 1) ++ l.suffix.toList

/-- `compute_list_item_index`, text_block.rs L766-L779, on the refreshed blocks. -/
def listItemIndex (blocks : List Block) (listId blockId : Nat) : Nat :=
  ((sortByKey (fun b => b.documentPosition) (blocks.filter fun b => decide (b.list = some listId))).findIdx?
    fun b => decide (b.id = blockId)).getD 0

/-- `synth_element_id`, format_runs.rs L311-L314, on 64-bit words. -/
def synthElementId (blockId byteStart : Nat) : Nat :=
  ((0x4000000000000000 ||| (((blockId &&& 0x3FFFFFFF) <<< 32) % 2 ^ 64)) ||| byteStart)

/-- `ListGrouper`, list_grouper.rs L10-L13. -/
abbrev ListGrouper := List (Option (Nat × ListStyle))

/-- `try_reuse`, list_grouper.rs L23-L33. -/
def ListGrouper.tryReuse (g : ListGrouper) (style : ListStyle) (indent : Nat) :
    ListGrouper × Option Nat :=
  let g := g.take (indent + 1)
  match g[indent]? with
  | some (some (id, st)) => if st = style then (g, some id) else (g, none)
  | _ => (g, none)

/-- `register`, list_grouper.rs L36-L42. -/
def ListGrouper.register (g : ListGrouper) (id : Nat) (style : ListStyle) (indent : Nat) : ListGrouper :=
  (g ++ List.replicate (indent + 1 - g.length) none).set indent (some (id, style))

/-- `reset`, list_grouper.rs L45-L47. -/
def ListGrouper.reset (_ : ListGrouper) : ListGrouper := []

/-- What an import meets: a list item (with the id a newly created list would get), or something else. -/
inductive ImportEv where
  | item (style : ListStyle) (indent : Nat) (fresh : Nat)
  | other
deriving DecidableEq, Repr

/-- The callers' use of the grouper, import_markdown_uc.rs L220-L248 (and the same lines in the other
importers): the list the item joins, or `none` for a block that is no item. -/
def ListGrouper.step (g : ListGrouper) : ImportEv → ListGrouper × Option Nat
  | .item style indent fresh =>
    let (g, found) := g.tryReuse style indent
    match found with
    | some id => (g, some id)
    | none => (g.register fresh style indent, some fresh)
  | .other => (g.reset, none)

/-- The lists the blocks of an import join. -/
def ListGrouper.run : ListGrouper → List ImportEv → List (Option Nat)
  | _, [] => []
  | g, e :: es => (g.step e).2 :: ListGrouper.run (g.step e).1 es

end Verif

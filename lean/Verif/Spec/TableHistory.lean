import Verif.Spec.Tables
import Verif.Spec.Editing
import Verif.Spec.Search
import Verif.Spec.Replace
import Verif.Spec.Inspect
import Verif.Spec.Formatting
import Verif.Model.Replace
import Verif.Model.Formatting
import Verif.Model.TableCommands
import Verif.Model.DeleteCells
import Verif.Spec.BoxFormats
/-
Histories of calls on documents with tables: the calls, when they are meant to work, and what they are meant to do to the
paragraphs and tables.
-/
namespace Verif
open Store

/-- A call. -/
inductive TabCall where
  | type (pos : Nat) (t : List Char)
  | typeOver (x y : Nat) (t : List Char)
  | setFormat (dto : SetFormatDto) (x y : Nat)
  | mergeFormat (dto : MergeFormatDto) (x y : Nat)
  | paragraphFormat (dto : BlockFormatDto) (x y : Nat)
  | replaceAll (q rep : List Char)
  | replaceOne (q rep : List Char)
  | breakAt (pos : Nat)
  | insertTable (pos rows columns : Nat)
  | erase (x y : Nat)
  | tableFormat (id : Nat) (fmt : TableFormat)
  | cellFormat (id : Nat) (fmt : CellFormat)

/-- The call of the model. -/
def TabCall.run (env : SearchEnv) (s : Store) : TabCall → Option Store
  | .type pos t => (s.insertText ⟨pos, pos, t⟩).map Prod.fst
  | .typeOver x y t => (s.insertText ⟨x, y, t⟩).map Prod.fst
  | .setFormat dto x y => (s.setTextFormat dto x y).map Prod.fst
  | .mergeFormat dto x y => (s.mergeTextFormat dto x y).map Prod.fst
  | .paragraphFormat dto x y => (s.setBlockFormat dto x y).map Prod.fst
  | .replaceAll q rep => (s.replaceText env ⟨q, rep, true, true, false, false⟩).map Prod.fst
  | .replaceOne q rep => (s.replaceText env ⟨q, rep, false, true, false, false⟩).map Prod.fst
  | .breakAt pos => (s.insertBlock pos).map Prod.fst
  | .insertTable pos rows columns => (s.insertTable pos pos rows columns).map Prod.fst
  | .erase x y => (s.deleteSelection x y).map Prod.fst
  | .tableFormat id fmt => (s.setTableFormat id fmt).map Prod.fst
  | .cellFormat id fmt => (s.setCellFormat id fmt).map Prod.fst

/-- The calls of the model, one after the other. -/
def TabCall.runAll (env : SearchEnv) : List TabCall → Store → Option Store
  | [], s => some s
  | c :: cs, s => (c.run env s).bind (runAll env cs)

/-- The position is `k` characters into the paragraph `p` outside the tables, between `A` and `B`. -/
def AtTop (items : List SItem) (pos : Nat) (A : List SItem) (p : SPara) (k : Nat) (B : List SItem) : Prop :=
  items = A ++ .para p :: B ∧ k ≤ p.chars.length ∧ pos = paraStart (flowParas items) (flowParas A).length + k

/-- When a call is meant to work: positions inside the document; a selection to type over inside one paragraph or cell; a paragraph
format for a selection that does not start at the end of a text; a query that is not empty and whose occurrences in one
paragraph do not overlap; breaks and new tables outside tables; a deletion inside one paragraph or cell, with no paragraph behind a
table; a format for a table or cell that is there. -/
def TabCall.able (items : List SItem) : TabCall → Prop
  | .type pos _ => pos ≤ docLen (flowParas items)
  | .typeOver x y _ => ∃ n p k l, (flowParas items)[n]? = some p ∧ k < l ∧ l ≤ p.chars.length ∧
      min x y = paraStart (flowParas items) n + k ∧ max x y = paraStart (flowParas items) n + l
  | .setFormat _ _ _ => True
  | .mergeFormat _ _ _ => True
  | .paragraphFormat _ x y => ∀ n p, (flowParas items)[n]? = some p → p.chars ≠ [] →
      min x y ≠ paraStart (flowParas items) n + p.chars.length
  | .replaceAll q _ => q ≠ [] ∧ ∀ p ∈ flowParas items, ∀ i j, OccursAt q i p.text → OccursAt q j p.text → i < j → i + q.length ≤ j
  | .replaceOne q _ => q ≠ []
  | .breakAt pos => ∃ A p k B, AtTop items pos A p k B
  | .insertTable pos rows columns => 1 ≤ rows ∧ 1 ≤ columns ∧ ∃ A p k B, AtTop items pos A p k B
  | .erase x y => ∃ P T n p k l, items = List.map .para P ++ List.map .table T ∧ (flowParas items)[n]? = some p ∧ k < l ∧
      l ≤ p.chars.length ∧ min x y = paraStart (flowParas items) n + k ∧ max x y = paraStart (flowParas items) n + l
  | .tableFormat id _ => ∃ t ∈ tablesOf items, t.table.id = id
  | .cellFormat id _ => ∃ c ∈ cellsOf items, c.cell.id = id

/-- What a call is meant to do. -/
def TabCall.effect (items items' : List SItem) : TabCall → Prop
  | .type pos t => flowParas items' = typeAt pos t (flowParas items) ∧ arrangement items' = arrangement items
  | .typeOver x y t => flowParas items' = typeAt (min x y) t (deleteBetween (min x y) (max x y) (flowParas items)) ∧
      arrangement items' = arrangement items
  | .setFormat dto x y => flowParas items' = reformatDoc (mergeSet dto) (min x y) (max x y) 0 (flowParas items) ∧
      arrangement items' = arrangement items
  | .mergeFormat dto x y => flowParas items' = reformatDoc (mergeMerge dto) (min x y) (max x y) 0 (flowParas items) ∧
      arrangement items' = arrangement items
  | .paragraphFormat dto x y => flowParas items' = reshapeDoc (applyBlockFormat dto) (touches (min x y) (max x y)) 0 (flowParas items) ∧
      items'.map (SItem.on fun q => { q with shape := {} }) = items.map (SItem.on fun q => { q with shape := {} })
  | .replaceAll q rep => flowParas items' = (flowParas items).map (replacePara q rep) ∧ arrangement items' = arrangement items
  | .replaceOne q rep => ((∀ p ∈ flowParas items, occurrences q p.text = []) → items' = items) ∧
      (∀ L p R o os, flowParas items = L ++ p :: R → (∀ x ∈ L, occurrences q x.text = []) → occurrences q p.text = o :: os →
        flowParas items' = L ++ { p with chars := rewriteAt rep o q.length p.chars } :: R ∧ arrangement items' = arrangement items)
  | .breakAt pos => ∃ A p k B new, AtTop items pos A p k B ∧ new ∉ (flowParas items).map SPara.id ∧
      items' = A ++ .para { p with chars := p.chars.take k } :: .para ⟨new, p.chars.drop k, p.shape⟩ :: B
  | .insertTable pos rows columns => ∃ A p k B t, AtTop items pos A p k B ∧ EmptyTable t rows columns ∧
      items' = A ++ if k = 0 then .table t :: .para p :: B else .para p :: .table t :: B
  | .erase x y => flowParas items' = deleteBetween (min x y) (max x y) (flowParas items) ∧ arrangement items' = arrangement items
  | .tableFormat id fmt => ∃ A t u B, items = A ++ .table t :: B ∧ t.table.id = id ∧ items' = A ++ .table { t with table := u } :: B ∧
      u.sameBut t.table ∧ .ofTable u = fmt.over (.ofTable t.table)
  | .cellFormat id fmt => ∃ A t C c u D B, items = A ++ .table t :: B ∧ t.cells = C ++ c :: D ∧ c.cell.id = id ∧
      items' = A ++ .table { t with cells := C ++ { c with cell := u } :: D } :: B ∧ u.sameBut c.cell ∧
      .ofCell u = fmt.over (.ofCell c.cell)

/-- Every call of the list is meant to work where it comes. -/
def TabCall.ableAll : List TabCall → List SItem → Prop
  | [], _ => True
  | c :: cs, items => c.able items ∧ ∀ items', c.effect items items' → ableAll cs items'

/-- Every call of the list did what it is meant to do. -/
def TabCall.effects : List TabCall → List SItem → List SItem → Prop
  | [], items, items' => items' = items
  | c :: cs, items, items'' => ∃ items', c.effect items items' ∧ effects cs items' items''

end Verif

import Verif.Lemmas.HtmlTables
import Verif.Lemmas.Sort
/- C81: tables in the HTML of a fragment. -/
namespace Verif
open Store

/-- **C81.** The HTML of a fragment with tables, as an HTML reader reads it, has the paragraphs of the fragment in order and its tables in the
order of their places, those with one place as they stand: every table once, with the cells of each row, the rows and columns each cell goes
over, and every paragraph of every cell as a line with its marks.  Without list items every table stands behind as many paragraphs as the
fragment says.  (A table between items of a list goes behind the list, `C81_table_fails`.) -/
theorem C81_tables_partial (bs : List FragBlock) (ts : List FragTable) (plain : List Char) (htx : ∀ fb ∈ bs, fb.IsText)
    (hts : ∀ t ∈ ts, ∀ c ∈ t.cells, ∀ fb ∈ c.blocks, fb.IsText) (hne : ts ≠ []) :
    ∃ (us : List FragTable) (tabs : List (Nat × List (List HtmlCell))),
    us.Perm ts ∧ (us.Pairwise fun a b => a.index ≤ b.index) ∧
    (∀ k, us.filter (fun t => decide (t.index = k)) = ts.filter fun t => decide (t.index = k)) ∧
    readPage (Fragment.toHtml ⟨some (bs, ts), plain⟩) = some (bs.map fragPageOf, tabs) ∧
    tabs.map Prod.snd = us.map fragTableOf ∧
    ((∀ fb ∈ bs, fb.list = none) → tabs.map Prod.fst = us.map fun t => min t.index bs.length) := by
  have hp := sortByKey_perm (fun t : FragTable => (t.index : Int)) ts
  have hsort : (sortByKey (fun t : FragTable => (t.index : Int)) ts).Pairwise fun a b => a.index ≤ b.index :=
    (sortByKey_sorted (fun t : FragTable => (t.index : Int)) ts).imp fun h => by omega
  obtain ⟨tabs, p1, p2, p3⟩ := bodyPg (outer := [⟨"body".toList, []⟩, ⟨"html".toList, []⟩])
    (by intro e he; simp only [List.mem_cons, List.not_mem_nil, or_false] at he; rcases he with rfl | rfl <;> decide)
    bs.length 0 bs _ (Nat.le_refl _) htx (fun t h => hts t (hp.mem_iff.mp h)) hsort
  refine ⟨_, tabs, hp, hsort, ?_, ?_, p2, ?_⟩
  · intro k
    have := sortByKey_stable (fun t : FragTable => (t.index : Int)) ts (k : Int)
    simpa [Int.natCast_inj] using this
  · have := readPage_page p1
    rw [← this]
    unfold Fragment.toHtml
    cases ts with
    | nil => exact absurd rfl hne
    | cons t ts =>
      cases bs with
      | nil => rfl
      | cons b bs => cases bs <;> rfl
  · simpa using p3

/-- A paragraph with tables before and behind it, one with a merged cell of two lines. -/
example : readPage (Fragment.toHtml ⟨some ([⟨['a'], [.text ['a'] {}], {}, none⟩], [⟨1, 2, [⟨0, 0, 1, 2, [⟨['b'], [.text ['b'] { fontBold := some true }], {}, none⟩,
      ⟨['c'], [.text ['c'] {}], {}, none⟩], {}⟩], 1, {}⟩, ⟨1, 1, [⟨0, 0, 1, 1, [], {}⟩], 0, {}⟩]), []⟩) =
    some ([⟨.para, [], [('a', {})]⟩],
      [(0, [[⟨['1'], ['1'], [[]]⟩]]), (1, [[⟨['1'], ['2'], [[('b', { bold := true })], [('c', {})]]⟩]])]) := by decide +kernel

end Verif

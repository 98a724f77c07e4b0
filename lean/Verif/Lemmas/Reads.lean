import Verif.Props.Inspect
import Verif.Model.Cursor
/- What cursors and handles need of a document: it can be read by position, and its paragraphs are where the
specification says. -/
namespace Verif
variable {s : Store} {d : Document} {f : Nat} {ps : List SPara} {p : SPara}
open Store

/-- Reading the document by position shows the paragraphs `ps`. -/
structure Reads (s : Store) (ps : List SPara) : Prop extends Legible s ps where
  nonempty : ps ≠ []
  block : ∀ p ∈ ps, ∃ b, s.blocks p.id = some b ∧ IsBlock p b
  position : ∀ {n p}, ps[n]? = some p → s.blockPosition p.id = paraStart ps n
  textAt : ∀ pos len : Nat, pos ≤ (docText ps).length →
    ∃ r, s.textAt pos len = some r ∧ r.text = ((docText ps).drop pos).take len ∧
      ∃ n p, ps[n]? = some p ∧ r.blockId = p.id ∧ paraStart ps n ≤ pos ∧ pos ≤ paraStart ps n + p.chars.length
  blockAt : ∀ n p k, ps[n]? = some p → k ≤ p.chars.length →
      (k < p.chars.length ∨ p.chars = [] ∨ ps[n + 1]? = none →
        s.blockAt ((paraStart ps n + k : Nat) : Int) = some (infoOf ps n p)) ∧
      (∀ q, k = p.chars.length → p.chars ≠ [] → ps[n + 1]? = some q →
        s.blockAt ((paraStart ps n + k : Nat) : Int) = some (infoOf ps (n + 1) q))
  beyond : ∀ pos : Int, (docText ps).length ≤ pos →
    ∃ p, ps.getLast? = some p ∧ s.blockAt pos = some (infoOf ps (ps.length - 1) p)

theorem para_at {n : Nat} (hp : ps[n]? = some p) : ∃ L R, ps = L ++ p :: R ∧ n = L.length := by
  obtain ⟨hlt, hget⟩ := List.getElem?_eq_some_iff.mp hp
  exact ⟨ps.take n, ps.drop (n + 1), by rw [← hget]; simp, by simp; omega⟩

theorem blockPosition_flat (h : Flat s d f ps) {n : Nat} {p : SPara} (hp : ps[n]? = some p) :
    s.blockPosition p.id = paraStart ps n := by
  obtain ⟨L, R, rfl, rfl⟩ := para_at hp
  have hf : Focus s.text (paras L) (.block p.id) p.text (paras R) := by
    apply Repr.focus
    have := h.text
    simpa [paras] using this
  obtain ⟨b, g1, _⟩ := h.block p (by simp)
  unfold Store.blockPosition
  rw [g1]
  dsimp only
  rw [if_pos h.matchFlow, hf.rangeOf]
  dsimp only
  rw [paraStart_at, show s.rope = s.text.rope from rfl, hf.charStart, Option.getD_some]

theorem Flat.reads (h : Flat s d f ps) : Reads s ps where
  toLegible := h.toShows.legible
  nonempty := h.nonempty
  block := h.block
  position := blockPosition_flat h
  textAt := C48_text_at h
  blockAt := (C48_block_at h).2
  beyond := fun pos => (C48_block_at_limits h pos).2

end Verif

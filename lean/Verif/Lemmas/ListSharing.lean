import Verif.Spec.ListSharing
import Verif.Props.Lists
import Verif.Model.InsertMarkup
/- The lists chosen for inserted paragraphs follow C44's rule. -/
namespace Verif
open Store

theorem ListRule.fewer {old old' : List Nat} (h : ∀ i ∈ old', i ∈ old) {past : Imported} {x : Option FragList} {l : Option Nat}
    (hr : ListRule old past x l) : ListRule old' past x l := by
  cases x with
  | none => exact hr
  | some x =>
    obtain ⟨n, h1, h2⟩ := hr
    exact ⟨n, fun hn => h1 (h n hn), h2⟩

theorem ListsJoined.fewer {xs : List (Option FragList)} : ∀ {old old' : List Nat} {past : Imported} {ls : List (Option Nat)},
    (∀ i ∈ old', i ∈ old) → ListsJoined old past xs ls → ListsJoined old' past xs ls := by
  induction xs with
  | nil =>
    intro old old' past ls h hj
    cases ls with
    | nil => trivial
    | cons l ls => exact hj.elim
  | cons x xs ih =>
    intro old old' past ls h hj
    cases ls with
    | nil => exact hj.elim
    | cons l ls =>
      refine ⟨hj.1.fewer h, ih ?_ hj.2⟩
      intro i hi
      rcases List.mem_append.mp hi with hi | hi
      · exact List.mem_append_left _ hi
      · exact List.mem_append_right _ (h i hi)

/-- What is known to the grouper after an item. -/
theorem step_eq {g : ListGrouper} {past : Imported} (hk : GrouperKnows g past) (x : FragList) (fresh : Nat) :
    (match (g.tryReuse x.style (toU32 x.indent)).2 with
      | some id => id
      | none => fresh) = joins past x.style (toU32 x.indent) fresh ∧
    GrouperKnows (match (g.tryReuse x.style (toU32 x.indent)).2 with
      | some _ => (g.tryReuse x.style (toU32 x.indent)).1
      | none => (g.tryReuse x.style (toU32 x.indent)).1.register fresh x.style (toU32 x.indent))
      (some (toU32 x.indent, joins past x.style (toU32 x.indent) fresh, x.style) :: past) := by
  obtain ⟨h1, h2⟩ := step_item hk x.style (toU32 x.indent) fresh
  unfold ListGrouper.step at h1 h2
  dsimp only at h1 h2
  cases hr : (g.tryReuse x.style (toU32 x.indent)).2 with
  | some id =>
    have he : g.tryReuse x.style (toU32 x.indent) = ((g.tryReuse x.style (toU32 x.indent)).1, some id) := by rw [← hr]
    rw [he] at h1 h2
    exact ⟨Option.some.inj h1, h2⟩
  | none =>
    have he : g.tryReuse x.style (toU32 x.indent) = ((g.tryReuse x.style (toU32 x.indent)).1, none) := by rw [← hr]
    rw [he] at h1 h2
    exact ⟨Option.some.inj h1, h2⟩

theorem GrouperKnows.nil : GrouperKnows [] [] := fun _ => rfl

/-- The grouper at the start of an insertion knows the list of the paragraph with the caret. -/
theorem primed_knows (s : Store) (cur : Block) : GrouperKnows (s.primedGrouper cur) (caretSeen s cur.list) := by
  unfold Store.primedGrouper caretSeen
  cases cur.list with
  | none => exact .nil
  | some l =>
    simp only [Option.bind_some]
    cases s.lists l with
    | none => exact .nil
    | some e =>
      intro i
      dsimp only
      rw [register_get [] _ _ _ _ (by simp), openList]
      show _ = if toU32 e.indent = i then _ else if toU32 e.indent < i then _ else _
      by_cases h1 : i = toU32 e.indent
      · rw [if_pos h1, if_pos h1.symm]; rfl
      · rw [if_neg h1, if_neg (show ¬ toU32 e.indent = i from fun e => h1 e.symm)]
        by_cases h2 : toU32 e.indent < i
        · rw [if_pos h2, if_pos h2]
        · rw [if_neg h2, if_neg h2]; rfl

end Verif

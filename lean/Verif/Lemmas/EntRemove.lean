import Verif.Spec.DirectAccess
/- What `remove_multi` of the repositories does to a store in good order. -/
namespace Verif

theorem IdMap.same {α : Type} {m m' : IdMap α} (hk : m.keys = m'.keys) (hg : ∀ i, m i = m' i) :
    m = m' := by
  obtain ⟨k, g, _, _⟩ := m
  obtain ⟨k', g', _, _⟩ := m'
  have : g = g' := funext hg
  simp only at hk
  subst hk; subst this
  rfl

theorem IdMap.insert_same {α : Type} (m : IdMap α) {i : Nat} {v : α} (h : m i = some v) :
    m.insert i v = m := by
  apply IdMap.same
  · simp [IdMap.insert, h]
  · intro j
    simp only [IdMap.insert]
    split
    · next e => rw [e, h]
    · rfl

theorem IdMap.eraseAll_get {α : Type} (ids : List Nat) (m : IdMap α) (i : Nat) :
    ids.foldl IdMap.erase m i = if ids.contains i then none else m i := by
  induction ids generalizing m with
  | nil => simp
  | cons a as ih =>
    rw [List.foldl_cons, ih]
    by_cases h1 : i = a <;> by_cases h2 : i ∈ as <;> simp [IdMap.erase, h1, h2] <;> simp_all

theorem IdMap.eraseAll_keys {α : Type} (ids : List Nat) (m : IdMap α) :
    (ids.foldl IdMap.erase m).keys = m.keys.filter fun i => !ids.contains i := by
  induction ids generalizing m with
  | nil => exact (List.filter_eq_self.mpr (by simp)).symm
  | cons a as ih =>
    rw [List.foldl_cons, ih]
    simp only [IdMap.erase, List.filter_filter]
    apply List.filter_congr
    intro i _
    by_cases h1 : i = a <;> simp [h1]

namespace Store

@[simp] theorem tab_withTab (s : Store) (k : EKind) (m : IdMap (Ent k)) : (s.withTab k m).tab k = m := by
  cases k <;> rfl

theorem tab_withTab_ne (s : Store) {k k' : EKind} (m : IdMap (Ent k)) (h : k' ≠ k) :
    (s.withTab k m).tab k' = s.tab k' := by
  cases k <;> cases k' <;> first | rfl | exact absurd rfl h

theorem withTab_tab (s : Store) (k : EKind) : s.withTab k (s.tab k) = s := by
  cases k <;> rfl

end Store

/-! ### References -/

theorem mem_read {r : RelField} {e : Ent r.left} {i : Nat} (h : i ∈ r.read e) :
    (r.right, i) ∈ owns r.left e ∨ (r.right, i) ∈ mentions r.left e := by
  cases r <;> simp only [RelField.read] at h <;> first
    | (left; simp [owns]; exact h)
    | (right; simp [mentions]; simpa using h)
    | (left; revert h; simp only [owns]; split <;> simp)

theorem Tidy.linked {s : Store} (h : Tidy s) {r : RelField} {o i : Nat} (hi : i ∈ s.readRel r o) :
    (s.tab r.right i).isSome = true := by
  unfold Store.readRel at hi
  cases he : s.tab r.left o with
  | none => simp [he] at hi
  | some e =>
    rw [he] at hi
    rcases mem_read hi with h1 | h1
    · exact (h.refs _ _ _ he).owns _ h1
    · exact (h.refs _ _ _ he).mentions _ h1

theorem entId_forget (g : EKind → Nat → Bool) (k : EKind) (e : Ent k) :
    entId k (forget g k e) = entId k e := by cases k <;> rfl

theorem owns_forget (g : EKind → Nat → Bool) (k : EKind) (e : Ent k) :
    owns k (forget g k e) = (owns k e).filter fun p => !g p.1 p.2 := by
  cases k with
  | root =>
    obtain ⟨i, d⟩ := (e : Root)
    simp only [owns, forget]
    by_cases h0 : d = 0
    · subst h0; simp
    · by_cases hg : g .document d <;> simp [hg, h0]
  | document => simp [owns, forget, List.filter_append, List.filter_map, Function.comp_def]
  | frame => simp [owns, forget, List.filter_map, Function.comp_def]
  | block => rfl
  | list => rfl
  | resource => rfl
  | table => simp [owns, forget, List.filter_map, Function.comp_def]
  | tableCell => rfl

theorem toList_filter {α : Type} (o : Option α) (p : α → Bool) :
    (o.filter p).toList = o.toList.filter p := by
  cases o with
  | none => rfl
  | some a => by_cases h : p a <;> simp [Option.filter, h]

theorem mentions_forget (g : EKind → Nat → Bool) (k : EKind) (e : Ent k) :
    mentions k (forget g k e) = (mentions k e).filter fun p => !g p.1 p.2 := by
  cases k <;> simp [mentions, forget, List.filter_append, List.filter_map, Function.comp_def,
    toList_filter]

theorem opt_filter_filter {α : Type} (o : Option α) (p q : α → Bool) :
    (o.filter p).filter q = o.filter fun a => p a && q a := by
  cases o with
  | none => rfl
  | some a => by_cases h : p a <;> by_cases h' : q a <;> simp [Option.filter, h, h']

theorem list_filter_filter {α : Type} (l : List α) (p q : α → Bool) :
    (l.filter p).filter q = l.filter fun a => p a && q a := by
  rw [List.filter_filter]
  exact List.filter_congr fun a _ => Bool.and_comm _ _

theorem forget_forget (g g' : EKind → Nat → Bool) (k : EKind) (e : Ent k) :
    forget g' k (forget g k e) = forget (fun k i => g k i || g' k i) k e := by
  cases k with
  | root =>
    obtain ⟨i, d⟩ := (e : Root)
    simp only [forget]
    by_cases h1 : g .document d <;> by_cases h2 : g' .document d <;> simp [h1, h2]
  | frame =>
    simp only [forget, list_filter_filter, opt_filter_filter, Bool.not_or]
    congr 1
    apply List.filter_congr
    intro j _
    cases decide (0 < j) <;> cases g .block j.toNat <;> cases g' .block j.toNat <;> rfl
  | _ => simp only [forget, list_filter_filter, opt_filter_filter, Bool.not_or]

/-! ### Forgetting -/

theorem Forgot.comp {g g' : EKind → Nat → Bool} {s t u : Store} (h : Forgot g s t)
    (h' : Forgot g' t u) : Forgot (fun k i => g k i || g' k i) s u where
  tab k i := by
    rw [h'.tab, h.tab]
    by_cases h1 : g k i <;> by_cases h2 : g' k i <;> simp [h1, h2, Function.comp_def, forget_forget]
  keys k := by rw [h'.keys, h.keys, list_filter_filter]; simp
  runs i := by
    rw [h'.runs, h.runs]
    by_cases h1 : g .block i <;> by_cases h2 : g' .block i <;> simp [h1, h2]
  runKeys := by rw [h'.runKeys, h.runKeys, list_filter_filter]; simp
  images i := by
    rw [h'.images, h.images]
    by_cases h1 : g .block i <;> by_cases h2 : g' .block i <;> simp [h1, h2]
  imageKeys := by rw [h'.imageKeys, h.imageKeys, list_filter_filter]; simp
  rope := h'.rope.trans h.rope
  offsets := h'.offsets.trans h.offsets
  counters := h'.counters.trans h.counters

theorem Forgot.some {g : EKind → Nat → Bool} {s t : Store} (h : Forgot g s t) {k : EKind} {i : Nat}
    {e : Ent k} (he : t.tab k i = some e) :
    g k i = false ∧ ∃ e0, s.tab k i = some e0 ∧ e = forget g k e0 := by
  rw [h.tab] at he
  by_cases h1 : g k i
  · simp [h1] at he
  · simp only [h1, Bool.false_eq_true, if_false, Option.map_eq_some_iff] at he
    obtain ⟨e0, h2, h3⟩ := he
    exact ⟨by simpa using h1, e0, h2, h3.symm⟩

theorem Forgot.isSome {g : EKind → Nat → Bool} {s t : Store} (h : Forgot g s t) {k : EKind} {i : Nat}
    (hg : g k i = false) : (t.tab k i).isSome = (s.tab k i).isSome := by
  rw [h.tab]; simp [hg]

theorem orders_forget {g : EKind → Nat → Bool} {k : EKind} {e : Ent k} (h : OrdersOwn k e) :
    OrdersOwn k (forget g k e) := by
  cases k with
  | frame =>
    refine ⟨h.1.filter _, ?_⟩
    intro j hj h0
    simp only [forget, List.mem_filter] at hj ⊢
    refine ⟨h.2 j hj.1 h0, ?_⟩
    have := hj.2
    simp only [h0, decide_true, Bool.true_and] at this
    exact this
  | _ => trivial

theorem Tidy.forgot {g : EKind → Nat → Bool} {s t : Store} (hs : Tidy s) (h : Forgot g s t) :
    Tidy t where
  keyed k i e he := by
    obtain ⟨_, e0, h1, rfl⟩ := h.some he
    rw [entId_forget]; exact hs.keyed k i e0 h1
  positive k := by
    rw [h.tab, hs.positive]; simp
  refs k i e he := by
    obtain ⟨_, e0, h1, rfl⟩ := h.some he
    have hr := hs.refs k i e0 h1
    refine ⟨?_, ?_, orders_forget hr.orders⟩
    · intro p hp
      rw [owns_forget, List.mem_filter] at hp
      rw [h.isSome (by simpa using hp.2)]
      exact hr.owns p hp.1
    · intro p hp
      rw [mentions_forget, List.mem_filter] at hp
      rw [h.isSome (by simpa using hp.2)]
      exact hr.mentions p hp.1
  runs i hi := by
    rw [h.runs] at hi
    by_cases h1 : g .block i
    · simp [h1] at hi
    · have h2 : g .block i = false := by simpa using h1
      rw [show t.blocks i = t.tab .block i from rfl, h.isSome h2]
      exact hs.runs i (by simpa [h2] using hi)
  images i hi := by
    rw [h.images] at hi
    by_cases h1 : g .block i
    · simp [h1] at hi
    · have h2 : g .block i = false := by simpa using h1
      rw [show t.blocks i = t.tab .block i from rfl, h.isSome h2]
      exact hs.images i (by simpa [h2] using hi)
  sole i j r r' hr hr' hd h0 := by
    obtain ⟨_, e0, h1, rfl⟩ := h.some (k := .root) hr
    obtain ⟨_, e0', h1', rfl⟩ := h.some (k := .root) hr'
    have key : ∀ e : Root, (forget g .root e : Root).document ≠ 0 →
        (forget g .root e : Root).document = e.document := by
      intro e he
      simp only [forget] at he ⊢
      split at he
      · exact absurd rfl he
      · next hh => rw [if_neg hh]
    have a1 := key _ h0
    have a2 := key e0' (hd ▸ h0)
    exact hs.sole i j e0 e0' h1 h1' (by rw [← a1, ← a2]; exact hd) (by rw [← a1]; exact h0)

/-! ### The tables -/

/-- The entities `ids` of kind `k`. -/
def goneOf (k : EKind) (ids : List Nat) : EKind → Nat → Bool := fun k' i =>
  decide (k' = k) && ids.contains i

theorem goneOf_iff {k k' : EKind} {ids : List Nat} {i : Nat} :
    goneOf k ids k' i = true ↔ k' = k ∧ i ∈ ids := by simp [goneOf]

theorem forget_same {g : EKind → Nat → Bool} {k : EKind} {e : Ent k}
    (ho : ∀ p ∈ owns k e, g p.1 p.2 = false) (hm : ∀ p ∈ mentions k e, g p.1 p.2 = false)
    (hor : OrdersOwn k e) : forget g k e = e := by
  have hf : ∀ (l : List Nat) (k' : EKind), (∀ i ∈ l, g k' i = false) →
      l.filter (fun i => !g k' i) = l := fun l k' h => List.filter_eq_self.mpr (by simpa using h)
  have hof : ∀ (o : Option Nat) (k' : EKind), (∀ i ∈ o.toList, g k' i = false) →
      o.filter (fun i => !g k' i) = o := by
    intro o k' h
    cases o with
    | none => rfl
    | some a => simp [Option.filter, h a (by simp)]
  cases k with
  | root =>
    obtain ⟨i, d⟩ := (e : Root)
    simp only [forget]
    by_cases h0 : d = 0
    · simp [h0]
    · rw [if_neg]
      have := ho (.document, d) (by simp [owns, h0])
      simp [this]
  | document =>
    obtain ⟨i, ti, f, td, wm, r, l, t, cc, bc⟩ := (e : Document)
    simp only [owns, List.mem_append, List.mem_map] at ho
    simp only [forget]
    rw [hf f _ (fun i h => ho _ (.inl (.inl (.inl ⟨i, h, rfl⟩)))),
      hf r _ (fun i h => ho _ (.inl (.inl (.inr ⟨i, h, rfl⟩)))),
      hf l _ (fun i h => ho _ (.inl (.inr ⟨i, h, rfl⟩))),
      hf t _ (fun i h => ho _ (.inr ⟨i, h, rfl⟩))]
  | frame =>
    obtain ⟨i, p, b, co, _, _, _, _, _, _, _, _, _, _, t⟩ := (e : Frame)
    simp only [owns, List.mem_map] at ho
    simp only [mentions, List.mem_append, List.mem_map] at hm
    simp only [forget]
    rw [hf b _ (fun i h => ho _ ⟨i, h, rfl⟩), hof p _ (fun i h => hm _ (.inl ⟨i, h, rfl⟩)),
      hof t _ (fun i h => hm _ (.inr ⟨i, h, rfl⟩)),
      (List.filter_eq_self (l := co)).mpr]
    intro j hj
    by_cases h0 : 0 < j
    · have := ho _ ⟨_, hor.2 j hj h0, rfl⟩
      simp only at this
      simp [h0, this]
    · simp [h0]
  | block =>
    simp only [mentions, List.mem_map] at hm
    simp only [forget]
    rw [hof _ _ (fun i h => hm _ ⟨i, h, rfl⟩)]
  | list => rfl
  | resource => rfl
  | table =>
    simp only [owns, List.mem_map] at ho
    simp only [forget]
    rw [hf _ _ (fun i h => ho _ ⟨i, h, rfl⟩)]
  | tableCell =>
    simp only [mentions, List.mem_map] at hm
    simp only [forget]
    rw [hof _ _ (fun i h => hm _ ⟨i, h, rfl⟩)]

theorem filter_tt {α : Type} (l : List α) : (l.filter fun _ => true) = l :=
  List.filter_eq_self.mpr (by simp)

theorem opt_filter_tt {α : Type} (o : Option α) : (o.filter fun _ => true) = o := by
  cases o <;> rfl

theorem write_read (r : RelField) (e : Ent r.left) : r.write e (r.read e) = e := by
  cases r with
  | rootDocument =>
    obtain ⟨i, d⟩ := (e : Root)
    by_cases h0 : d = 0 <;> simp [RelField.read, RelField.write, h0]
  | frameParent => obtain ⟨i, p, b, co, _, _, _, _, _, _, _, _, _, _, t⟩ := (e : Frame); cases p <;> rfl
  | frameTable => obtain ⟨i, p, b, co, _, _, _, _, _, _, _, _, _, _, t⟩ := (e : Frame); cases t <;> rfl
  | blockList =>
    show ({ (e : Block) with list := (Block.list e).toList.head? } : Block) = e
    cases h : Block.list e <;> simp [← h]
  | cellFrame =>
    show ({ (e : TableCell) with cellFrame := (TableCell.cellFrame e).toList.head? } : TableCell) = e
    cases h : TableCell.cellFrame e <;> simp [← h]
  | _ => rfl

theorem stripRel_write (r : RelField) (ids : List Nat) (e : Ent r.left) :
    Store.stripRel r ids e = r.write e ((r.read e).filter fun i => !ids.contains i) := by
  unfold Store.stripRel
  split
  · rfl
  · next h =>
    rw [List.filter_eq_self.mpr (by simpa using h), write_read]

theorem find_toList (o : Option Nat) (p : Nat → Bool) : o.toList.find? p = o.filter p := by
  cases o with
  | none => rfl
  | some a => by_cases h : p a <;> simp [Option.filter, h]

theorem stripRel_eq (r : RelField) (hr : r ≠ .frameBlocks) (ids : List Nat) (e : Ent r.left) :
    Store.stripRel r ids e = forget (goneOf r.right ids) r.left e := by
  rw [stripRel_write]
  cases r with
  | frameBlocks => exact absurd rfl hr
  | rootDocument =>
    obtain ⟨i, d⟩ := (e : Root)
    simp only [RelField.read, RelField.write, forget, goneOf]
    by_cases h0 : d = 0
    · simp [h0]
    · by_cases hd : d ∈ ids <;> simp [h0, hd]
  | _ =>
    simp [RelField.read, RelField.write, forget, goneOf, find_toList, filter_tt, opt_filter_tt]

theorem stripFrame_eq (ids : List Nat) (f : Frame) (h : OrdersOwn .frame f) :
    Store.stripFrame ids f = (forget (goneOf .block ids) .frame f : Frame) := by
  unfold Store.stripFrame
  split
  · simp [forget, goneOf, opt_filter_tt]
  · next hn =>
    rw [forget_same (g := goneOf .block ids)]
    · intro p hp
      simp only [owns, List.mem_map] at hp
      obtain ⟨i, hi, rfl⟩ := hp
      simp only [List.any_eq_true, not_exists, not_and] at hn
      simpa [goneOf] using hn i hi
    · intro p hp
      simp only [mentions, List.mem_append, List.mem_map] at hp
      rcases hp with ⟨i, _, rfl⟩ | ⟨i, _, rfl⟩ <;> simp [goneOf]
    · exact h

theorem map_congr_some {α : Type} (o : Option α) (f g : α → α) (h : ∀ a, o = some a → f a = g a) :
    o.map f = o.map g := by
  cases o with
  | none => rfl
  | some a => simp [h a rfl]

theorem dropEnts_forgot {s : Store} (hs : Tidy s) (k : EKind) (ids : List Nat) :
    Forgot (goneOf k ids) s (s.dropEnts k ids) where
  tab k' i := by
    have hor := fun e he => (hs.refs k' i e he).orders
    have st : ∀ r : RelField, r ≠ .frameBlocks → ∀ m : IdMap (Ent r.left),
        m.mapValues (Store.stripRel r ids) i = (m i).map (forget (goneOf r.right ids) r.left) := by
      intro r hr m
      show (m i).map _ = _
      rw [show Store.stripRel r ids = forget (goneOf r.right ids) r.left from
        funext fun e => stripRel_eq r hr ids e]
    have ow : (∀ e, forget (goneOf k ids) k' e = e) →
        (s.dropEnts k ids).tab k' i = (if goneOf k ids k' i then none else s.tab k' i) →
        (s.dropEnts k ids).tab k' i = if goneOf k ids k' i then none else
          (s.tab k' i).map (forget (goneOf k ids) k') := by
      intro h1 h2
      rw [h2, show forget (goneOf k ids) k' = id from funext h1]
      simp
    cases k <;> cases k' <;> first
      | (refine ow (fun e => ?_) ?_
         · simp [forget, goneOf, filter_tt, opt_filter_tt]; done
         · simp [Store.dropEnts, Store.tableRemoveBlocks, Store.tab, goneOf, IdMap.eraseAll_get]; done)
      | skip
    case document.root => rw [if_neg (by simp [goneOf])]; exact st .rootDocument (by decide) s.roots
    case frame.document => rw [if_neg (by simp [goneOf])]; exact st .docFrames (by decide) s.documents
    case frame.tableCell => rw [if_neg (by simp [goneOf])]; exact st .cellFrame (by decide) s.tableCells
    case list.document => rw [if_neg (by simp [goneOf])]; exact st .docLists (by decide) s.documents
    case list.block => rw [if_neg (by simp [goneOf])]; exact st .blockList (by decide) s.blocks
    case resource.document => rw [if_neg (by simp [goneOf])]; exact st .docResources (by decide) s.documents
    case table.document => rw [if_neg (by simp [goneOf])]; exact st .docTables (by decide) s.documents
    case table.frame => rw [if_neg (by simp [goneOf])]; exact st .frameTable (by decide) s.frames
    case tableCell.table => rw [if_neg (by simp [goneOf])]; exact st .tableCells (by decide) s.tables
    case block.frame =>
      have : (s.frames i).map (Store.stripFrame ids) =
          (s.frames i).map (forget (goneOf .block ids) .frame) :=
        map_congr_some _ _ _ fun f hf => stripFrame_eq ids f (hor f hf)
      rw [if_neg (by simp [goneOf])]; exact this
    case frame.frame =>
      have := st .frameParent (by decide) (ids.foldl IdMap.erase s.frames)
      rw [IdMap.eraseAll_get] at this
      refine Eq.trans this ?_
      by_cases h : i ∈ ids <;> simp [goneOf, h, Store.tab]
  keys k' := by
    cases k <;> cases k' <;>
      simp [Store.dropEnts, Store.tableRemoveBlocks, Store.tab, goneOf, IdMap.mapValues,
        IdMap.eraseAll_keys, filter_tt]
  runs i := by
    cases k <;> simp [Store.dropEnts, Store.tableRemoveBlocks, goneOf, IdMap.eraseAll_get]
  runKeys := by
    cases k <;> simp [Store.dropEnts, Store.tableRemoveBlocks, goneOf, IdMap.eraseAll_keys, filter_tt]
  images i := by
    cases k <;> simp [Store.dropEnts, Store.tableRemoveBlocks, goneOf, IdMap.eraseAll_get]
  imageKeys := by
    cases k <;> simp [Store.dropEnts, Store.tableRemoveBlocks, goneOf, IdMap.eraseAll_keys, filter_tt]
  rope := by cases k <;> rfl
  offsets := by cases k <;> rfl
  counters := by cases k <;> rfl

/-! ### The repositories -/

theorem read_forget (g : EKind → Nat → Bool) (r : RelField) (e : Ent r.left) :
    r.read (forget g r.left e) = (r.read e).filter fun i => !g r.right i := by
  cases r with
  | rootDocument =>
    obtain ⟨i, d⟩ := (e : Root)
    simp only [RelField.read, forget]
    by_cases h0 : d = 0
    · simp [h0]
    · by_cases hg : g .document d <;> simp [h0, hg]
  | _ => simp [RelField.read, forget, toList_filter]

theorem readRel_forgot {g : EKind → Nat → Bool} {s t : Store} (h : Forgot g s t) (r : RelField)
    {o : Nat} (ho : g r.left o = false) :
    t.readRel r o = (s.readRel r o).filter fun i => !g r.right i := by
  unfold Store.readRel
  rw [h.tab]
  cases he : s.tab r.left o with
  | none => simp [ho]
  | some e => simp [ho, read_forget]

theorem owner_right {k : EKind} {r : RelField} (h : k.owner = some r) : r.right = k ∧ r.left ≠ k := by
  cases k <;> simp only [EKind.owner, Option.some.injEq, reduceCtorEq] at h <;> subst h <;>
    exact ⟨rfl, by decide⟩

/-- Setting a field to what it is changes nothing. -/
theorem setRel_same {s : Store} (hs : Tidy s) (r : RelField) (o : Nat) :
    s.setRel r o (s.readRel r o) = some s := by
  unfold Store.setRel
  rw [if_pos (by
    rw [List.all_eq_true]
    intro i hi
    exact hs.linked hi)]
  rw [if_neg]
  · cases he : s.tab r.left o with
    | none => rfl
    | some e =>
      have : s.readRel r o = r.read e := by simp [Store.readRel, he]
      rw [this]
      simp only [write_read, IdMap.insert_same _ he, Store.withTab_tab]
  · rintro ⟨rfl, h⟩
    have : ((s.readRel .rootDocument o).head?.all fun d => s.soleDoc o d) = true := by
      unfold Store.readRel
      cases he : s.tab RelField.rootDocument.left o with
      | none => rfl
      | some e =>
        obtain ⟨i, d⟩ := (e : Root)
        by_cases h0 : d = 0
        · simp [RelField.read, h0]
        · simp only [RelField.read, h0, if_false, Option.map_some, Option.getD_some, List.head?_cons,
            Option.all_some, Store.soleDoc, Bool.or_eq_true, beq_iff_eq, false_or, List.all_eq_true]
          intro j hj
          by_cases hjo : j = o
          · exact .inl hjo
          · refine .inr ?_
            cases hr : s.roots j with
            | none => simp
            | some r =>
              simp only [Option.map_some, bne_iff_ne, ne_eq, Option.some.injEq]
              intro hd
              exact hjo (hs.sole j o r ⟨i, d⟩ hr he hd (hd ▸ h0))
    rw [this] at h
    cases h

theorem removeHere_eq {s : Store} (hs : Tidy s) (k : EKind) (ids : List Nat) :
    s.removeHere k ids = some (s.dropEnts k ids) := by
  have hf := dropEnts_forgot hs k ids
  have ht := hs.forgot hf
  unfold Store.removeHere
  cases ho : k.owner with
  | none => rfl
  | some r =>
    obtain ⟨h1, h2⟩ := owner_right ho
    simp only
    have key : ∀ o, (s.dropEnts k ids).setRel r o ((s.readRel r o).filter fun i => !ids.contains i) =
        some (s.dropEnts k ids) := by
      intro o
      have := readRel_forgot hf r (o := o) (by simp [goneOf, h2])
      have e : (s.readRel r o).filter (fun i => !ids.contains i) = (s.dropEnts k ids).readRel r o := by
        rw [this]
        apply List.filter_congr
        intro i _
        simp [goneOf, h1]
      rw [e]
      exact setRel_same ht r o
    have : ∀ os : List Nat, Store.relinkOwners r ids (os.map fun o => (o, s.readRel r o))
        (s.dropEnts k ids) = some (s.dropEnts k ids) := by
      intro os
      induction os with
      | nil => rfl
      | cons o os ih =>
        simp only [List.map_cons, Store.relinkOwners, key o, Option.bind_some]
        exact ih
    exact this _

/-! ### The cascade -/

/-- Everything owned by what goes goes too. -/
def Closed (s : Store) (g : EKind → Nat → Bool) : Prop :=
  ∀ k o e, g k o = true → s.tab k o = some e → ∀ p ∈ owns k e, g p.1 p.2 = true

theorem Closed.comp {g g' : EKind → Nat → Bool} {s t : Store} (h : Closed s g) (hf : Forgot g s t)
    (h' : Closed t g') : Closed s (fun k i => g k i || g' k i) := by
  intro k o e hg he p hp
  by_cases h1 : g k o
  · simp [h k o e h1 he p hp]
  · by_cases h2 : g p.1 p.2
    · simp [h2]
    · have hg' : g' k o = true := by simpa [h1] using hg
      have : t.tab k o = some (forget g k e) := by rw [hf.tab]; simp [h1, he]
      have := h' k o _ hg' this p (by rw [owns_forget, List.mem_filter]; exact ⟨hp, by simp [h2]⟩)
      simp [this]

theorem Goes.mono {g : EKind → Nat → Bool} {s t : Store} (h : Forgot g s t) {k : EKind} {ids : List Nat}
    {k' : EKind} {i : Nat} (hg : Goes t k ids k' i) : Goes s k ids k' i := by
  induction hg with
  | self hi => exact .self hi
  | owned _ he hp ih =>
    obtain ⟨_, e0, h1, rfl⟩ := h.some he
    rw [owns_forget, List.mem_filter] at hp
    exact .owned ih h1 hp.1

/-- What a removal does, `gone` being what goes. -/
structure Removed (s : Store) (k : EKind) (ids : List Nat) (g : EKind → Nat → Bool) (t : Store) :
    Prop where
  forgot : Forgot g s t
  closed : Closed s g
  all : ∀ i ∈ ids, g k i = true
  only : ∀ k' i, g k' i = true → i = 0 ∨ Goes s k ids k' i

theorem Removed.iff {s : Store} {k : EKind} {ids : List Nat} {g : EKind → Nat → Bool} {t : Store}
    (h : Removed s k ids g t) (k' : EKind) (i : Nat) (h0 : i ≠ 0) :
    g k' i = true ↔ Goes s k ids k' i := by
  refine ⟨fun hg => (h.only k' i hg).resolve_left h0, fun hg => ?_⟩
  clear h0
  induction hg with
  | self hi => exact h.all _ hi
  | owned _ he hp ih => exact h.closed _ _ _ ih he _ hp

/-- How many levels of owners there can be from this kind down. -/
def EKind.height : EKind → Nat
  | .root => 4
  | .document => 3
  | .frame => 2
  | .table => 2
  | _ => 1

theorem strongIds_mem {k : EKind} {es : List (Ent k)} {e : Ent k} (he : e ∈ es) {p : EKind × Nat}
    (hp : p ∈ owns k e) : ∃ is, (p.1, is) ∈ strongIds k es ∧ p.2 ∈ is := by
  cases k with
  | root =>
    simp only [owns] at hp
    split at hp
    · simp at hp
    · rw [List.mem_singleton] at hp
      subst hp
      exact ⟨_, .head _, List.mem_map.mpr ⟨e, he, rfl⟩⟩
  | document =>
    simp only [owns, List.mem_append, List.mem_map] at hp
    rcases hp with ((⟨i, hi, rfl⟩ | ⟨i, hi, rfl⟩) | ⟨i, hi, rfl⟩) | ⟨i, hi, rfl⟩
    · exact ⟨_, .head _, List.mem_eraseDups.mpr (List.mem_flatMap.mpr ⟨e, he, hi⟩)⟩
    · exact ⟨_, .tail _ (.head _), List.mem_eraseDups.mpr (List.mem_flatMap.mpr ⟨e, he, hi⟩)⟩
    · exact ⟨_, .tail _ (.tail _ (.head _)), List.mem_eraseDups.mpr (List.mem_flatMap.mpr ⟨e, he, hi⟩)⟩
    · exact ⟨_, .tail _ (.tail _ (.tail _ (.head _))),
        List.mem_eraseDups.mpr (List.mem_flatMap.mpr ⟨e, he, hi⟩)⟩
  | frame =>
    simp only [owns, List.mem_map] at hp
    obtain ⟨i, hi, rfl⟩ := hp
    exact ⟨_, .head _, List.mem_eraseDups.mpr (List.mem_flatMap.mpr ⟨e, he, hi⟩)⟩
  | table =>
    simp only [owns, List.mem_map] at hp
    obtain ⟨i, hi, rfl⟩ := hp
    exact ⟨_, .head _, List.mem_eraseDups.mpr (List.mem_flatMap.mpr ⟨e, he, hi⟩)⟩
  | _ => simp [owns] at hp

/-- The ids of a strong group are owned (a root without document gives the id 0). -/
theorem strongIds_owns {k : EKind} {es : List (Ent k)} {k' : EKind} {is : List Nat}
    (h : (k', is) ∈ strongIds k es) :
    k'.height < k.height ∧ ∀ i ∈ is, i = 0 ∨ ∃ e ∈ es, (k', i) ∈ owns k e := by
  cases k with
  | root =>
    simp only [strongIds, List.mem_singleton, Prod.mk.injEq] at h
    obtain ⟨rfl, rfl⟩ := h
    refine ⟨by decide, ?_⟩
    intro i hi
    simp only [List.mem_map] at hi
    obtain ⟨e, he, rfl⟩ := hi
    by_cases h0 : Root.document e = 0
    · exact .inl h0
    · exact .inr ⟨e, he, by simp [owns, h0]⟩
  | document =>
    simp only [strongIds, List.mem_cons, Prod.mk.injEq, List.not_mem_nil, or_false] at h
    rcases h with ⟨rfl, rfl⟩ | ⟨rfl, rfl⟩ | ⟨rfl, rfl⟩ | ⟨rfl, rfl⟩ <;> refine ⟨by decide, ?_⟩ <;>
      intro i hi <;> rw [List.mem_eraseDups, List.mem_flatMap] at hi <;>
      obtain ⟨e, he, hi⟩ := hi <;> refine .inr ⟨e, he, ?_⟩ <;> simp [owns, hi]
  | frame =>
    simp only [strongIds, List.mem_singleton, Prod.mk.injEq] at h
    obtain ⟨rfl, rfl⟩ := h
    refine ⟨by decide, ?_⟩
    intro i hi
    rw [List.mem_eraseDups, List.mem_flatMap] at hi
    obtain ⟨e, he, hi⟩ := hi
    exact .inr ⟨e, he, by simp [owns, hi]⟩
  | table =>
    simp only [strongIds, List.mem_singleton, Prod.mk.injEq] at h
    obtain ⟨rfl, rfl⟩ := h
    refine ⟨by decide, ?_⟩
    intro i hi
    rw [List.mem_eraseDups, List.mem_flatMap] at hi
    obtain ⟨e, he, hi⟩ := hi
    exact .inr ⟨e, he, by simp [owns, hi]⟩
  | _ => simp [strongIds] at h

/-- Forgetting what is not there changes nothing. -/
theorem forgot_absent {s : Store} (hs : Tidy s) {g : EKind → Nat → Bool}
    (h : ∀ k i, g k i = true → s.tab k i = none) : Forgot g s s := by
  have hg : ∀ k i, (s.tab k i).isSome = true → g k i = false := by
    intro k i hi
    cases hb : g k i with
    | false => rfl
    | true => rw [h k i hb] at hi; cases hi
  refine ⟨?_, ?_, ?_, ?_, ?_, ?_, rfl, rfl, rfl⟩
  · intro k i
    cases he : s.tab k i with
    | none => simp
    | some e =>
      have hr := hs.refs k i e he
      rw [if_neg (by simp [hg k i (by simp [he])]), Option.map_some,
        forget_same (fun p hp => hg _ _ (hr.owns p hp)) (fun p hp => hg _ _ (hr.mentions p hp)) hr.orders]
  · intro k
    symm
    rw [List.filter_eq_self]
    intro i hi
    simp [hg k i (((s.tab k).mem i).mp hi)]
  · intro i
    by_cases hb : g .block i
    · rw [if_pos hb]
      cases hr : s.formatRuns i with
      | none => rfl
      | some r =>
        have := hs.runs i (by simp [hr])
        rw [show s.blocks i = none from h .block i hb] at this
        cases this
    · rw [if_neg hb]
  · symm
    rw [List.filter_eq_self]
    intro i hi
    simp [hg .block i (hs.runs i ((s.formatRuns.mem i).mp hi))]
  · intro i
    by_cases hb : g .block i
    · rw [if_pos hb]
      cases hr : s.blockImages i with
      | none => rfl
      | some r =>
        have := hs.images i (by simp [hr])
        rw [show s.blocks i = none from h .block i hb] at this
        cases this
    · rw [if_neg hb]
  · symm
    rw [List.filter_eq_self]
    intro i hi
    simp [hg .block i (hs.images i ((s.blockImages.mem i).mp hi))]

theorem Goes.lift {s : Store} (hs : Tidy s) {k k1 : EKind} {ids is : List Nat}
    (h : ∀ i ∈ is, i = 0 ∨ Goes s k ids k1 i) {k' : EKind} {i : Nat} (hg : Goes s k1 is k' i) :
    i = 0 ∨ Goes s k ids k' i := by
  induction hg with
  | self hi => exact h _ hi
  | @owned k' k'' o i e _ he hp ih =>
    rcases ih with rfl | ih
    · rw [hs.positive] at he; cases he
    · exact .inr (.owned ih he hp)

theorem removeGroups_spec {down : EKind → List Nat → Store → Option Store} {n : Nat}
    (ih : ∀ k ids s, Tidy s → k.height ≤ n → ∃ g t, down k ids s = some t ∧ Removed s k ids g t) :
    ∀ (gs : List (EKind × List Nat)) (s : Store), Tidy s → (∀ p ∈ gs, p.1.height ≤ n) →
      ∃ g t, Store.removeGroups down gs s = some t ∧ Forgot g s t ∧ Closed s g ∧
        (∀ p ∈ gs, ∀ i ∈ p.2, g p.1 i = true) ∧
        ∀ k' i, g k' i = true → ∃ p ∈ gs, i = 0 ∨ Goes s p.1 p.2 k' i := by
  intro gs
  induction gs with
  | nil =>
    intro s hs _
    exact ⟨fun _ _ => false, s, rfl, forgot_absent hs (by simp), by intro k o e h; simp at h,
      by simp, by simp⟩
  | cons p gs ihg =>
    intro s hs hgs
    obtain ⟨k, ids⟩ := p
    obtain ⟨g1, t1, e1, r1⟩ := ih k ids s hs (hgs (k, ids) (.head _))
    obtain ⟨g2, t2, e2, f2, c2, a2, o2⟩ := ihg t1 (hs.forgot r1.forgot) (fun p hp => hgs p (.tail _ hp))
    refine ⟨_, t2, ?_, r1.forgot.comp f2, r1.closed.comp r1.forgot c2, ?_, ?_⟩
    · simp only [Store.removeGroups, e1, Option.bind_some, e2]
    · intro p hp i hi
      rcases List.mem_cons.mp hp with rfl | hp
      · simp [r1.all i hi]
      · simp [a2 p hp i hi]
    · intro k' i hg
      rcases Bool.or_eq_true _ _ ▸ hg with h1 | h2
      · exact ⟨_, .head _, r1.only _ _ h1⟩
      · obtain ⟨p, hp, h⟩ := o2 _ _ h2
        exact ⟨p, .tail _ hp, h.imp id (Goes.mono r1.forgot)⟩

theorem removeLevel_spec : ∀ (n : Nat) (k : EKind) (ids : List Nat) (s : Store), Tidy s →
    k.height ≤ n → ∃ g t, Store.removeLevel n k ids s = some t ∧ Removed s k ids g t := by
  intro n
  induction n with
  | zero => intro k ids s hs hk; cases k <;> simp [EKind.height] at hk
  | succ n ih =>
    intro k ids s hs hk
    simp only [Store.removeLevel, Store.removeWith]
    by_cases hall : (ids.all fun i => (s.tab k i).isNone) = true
    · rw [if_pos hall]
      rw [List.all_eq_true] at hall
      have hn : ∀ k' i, goneOf k ids k' i = true → s.tab k' i = none := by
        intro k' i h
        obtain ⟨rfl, hi⟩ := goneOf_iff.mp h
        simpa using hall i hi
      refine ⟨goneOf k ids, s, rfl, forgot_absent hs hn, ?_, fun i hi => goneOf_iff.mpr ⟨rfl, hi⟩, ?_⟩
      · intro k' o e h he
        rw [hn k' o h] at he; cases he
      · intro k' i h
        obtain ⟨rfl, hi⟩ := goneOf_iff.mp h
        exact .inr (.self hi)
    · rw [if_neg hall]
      have hh : ∀ p ∈ strongIds k (ids.filterMap fun i => s.tab k i), p.1.height ≤ n := by
        intro p hp
        have := (strongIds_owns (k' := p.1) (is := p.2) hp).1
        omega
      obtain ⟨g1, t1, e1, f1, c1, a1, o1⟩ := removeGroups_spec ih _ s hs hh
      have ht1 := hs.forgot f1
      refine ⟨_, t1.dropEnts k ids, ?_, f1.comp (dropEnts_forgot ht1 k ids), c1.comp f1 ?_, ?_, ?_⟩
      · rw [e1, Option.bind_some, removeHere_eq ht1]
      · intro k' o e h he p hp
        exfalso
        obtain ⟨rfl, hi⟩ := goneOf_iff.mp h
        obtain ⟨_, e0, he0, rfl⟩ := f1.some he
        rw [owns_forget, List.mem_filter] at hp
        obtain ⟨is, h1, h2⟩ := strongIds_mem (es := ids.filterMap fun i => s.tab k' i)
          (List.mem_filterMap.mpr ⟨o, hi, he0⟩) hp.1
        have := a1 _ h1 _ h2
        simp [this] at hp
      · intro i hi
        simp [goneOf, hi]
      · intro k' i hg
        rcases Bool.or_eq_true _ _ ▸ hg with h1 | h2
        · obtain ⟨p, hp, h⟩ := o1 _ _ h1
          rcases h with h | h
          · exact .inl h
          · refine Goes.lift hs ?_ h
            intro j hj
            rcases (strongIds_owns (k' := p.1) (is := p.2) hp).2 j hj with h0 | ⟨e, he, ho⟩
            · exact .inl h0
            · obtain ⟨o, ho1, ho2⟩ := List.mem_filterMap.mp he
              exact .inr (.owned (.self ho1) ho2 ho)
        · obtain ⟨rfl, hi⟩ := goneOf_iff.mp h2
          exact .inr (.self hi)

theorem removeEnts_spec {s : Store} (hs : Tidy s) (k : EKind) (ids : List Nat) :
    ∃ g t, s.removeEnts k ids = some t ∧ Removed s k ids g t :=
  removeLevel_spec 4 k ids s hs (by cases k <;> decide)

end Verif

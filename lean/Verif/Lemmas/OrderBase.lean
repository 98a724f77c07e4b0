import Verif.Lemmas.EntHistory
import Verif.Model.TableCommands
import Verif.Model.ListCommands
/-
The steps the document commands are made of keep a store in good order.
-/
namespace Verif

/-- In good order, with fresh ids ahead. -/
structure Fine (s : Store) : Prop where
  tidy : Tidy s
  ahead : Ahead s

/-- `t` is in good order and still has the entities of `s` of the kinds in `K`. -/
structure Leads (K : EKind → Bool) (s t : Store) : Prop where
  fine : Fine t
  counters : CountersLe s.counters t.counters
  keep : ∀ k i, K k = true → (s.tab k i).isSome = true → (t.tab k i).isSome = true

abbrev Grows (s t : Store) : Prop := Leads (fun _ => true) s t

theorem CountersLe.trans {a b c : String → Option Nat} (h : CountersLe a b) (h' : CountersLe b c) :
    CountersLe a c := fun k => Nat.le_trans (h k) (h' k)

theorem Leads.refl {K : EKind → Bool} {s : Store} (h : Fine s) : Leads K s s :=
  ⟨h, fun _ => Nat.le_refl _, fun _ _ _ h => h⟩

theorem Leads.trans {K : EKind → Bool} {s t u : Store} (h : Leads K s t) (h' : Leads K t u) : Leads K s u :=
  ⟨h'.fine, h.counters.trans h'.counters, fun k i hk hi => h'.keep k i hk (h.keep k i hk hi)⟩

theorem Leads.mono {K K' : EKind → Bool} {s t : Store} (h : Leads K s t) (hk : ∀ k, K' k = true → K k = true) :
    Leads K' s t := ⟨h.fine, h.counters, fun k i hk' => h.keep k i (hk k hk')⟩

theorem Leads.of {K : EKind → Bool} {s t : Store} (h : Grows s t) : Leads K s t := h.mono fun _ _ => rfl

/-- The next id of a kind. -/
def Store.nextOf (s : Store) (k : EKind) : Nat := (s.counters k.counter).getD 1

theorem Fine.lt {s : Store} (h : Fine s) {k : EKind} {i : Nat} {e : Ent k} (he : s.tab k i = some e) :
    i < s.nextOf k := (h.ahead k).2 i (by simp [he])

theorem Fine.pos {s : Store} (h : Fine s) {k : EKind} {i : Nat} {e : Ent k} (he : s.tab k i = some e) :
    i ≠ 0 := by
  rintro rfl; rw [h.tidy.positive] at he; cases he

/-! ### The text, the counters -/

theorem Fine.same {s t : Store} (h : Fine s) (ht : ∀ k, t.tab k = s.tab k) (hr : t.formatRuns = s.formatRuns)
    (hi : t.blockImages = s.blockImages) (hc : CountersLe s.counters t.counters) : Grows s t := by
  refine ⟨⟨⟨?_, ?_, ?_, ?_, ?_, ?_⟩, ?_⟩, hc, fun k i _ h => by rw [ht]; exact h⟩
  · intro k i e he; rw [ht] at he; exact h.tidy.keyed k i e he
  · intro k; rw [ht]; exact h.tidy.positive k
  · intro k i e he; rw [ht] at he; exact (h.tidy.refs k i e he).congr fun k => (ht k).symm
  · have := ht .block
    intro i h1
    rw [hr] at h1
    show (t.tab .block i).isSome = true
    rw [this]; exact h.tidy.runs i h1
  · have := ht .block
    intro i h1
    rw [hi] at h1
    show (t.tab .block i).isSome = true
    rw [this]; exact h.tidy.images i h1
  · have : t.roots = s.roots := ht .root
    rw [this]; exact h.tidy.sole
  · intro k
    refine ⟨Nat.le_trans (h.ahead k).1 (hc k), fun i h1 => ?_⟩
    rw [ht] at h1
    exact Nat.lt_of_lt_of_le ((h.ahead k).2 i h1) (hc k)

theorem Fine.withText {s : Store} (h : Fine s) (r : RopeSt) : Grows s (s.withText r) :=
  h.same (fun k => by cases k <;> rfl) rfl rfl (fun _ => Nat.le_refl _)

theorem nextId_le (s : Store) (k : EKind) : CountersLe s.counters (s.nextId k.counter).2.counters := by
  intro k'
  simp only [Store.nextId]
  split
  · rename_i h; rw [h]; simp
  · exact Nat.le_refl _

theorem Fine.next {s : Store} (h : Fine s) (k : EKind) : Grows s (s.nextId k.counter).2 :=
  h.same (fun k => by cases k <;> rfl) rfl rfl (nextId_le s k)

/-! ### Writing an entity -/

theorem Fine.put {s : Store} (h : Fine s) {k : EKind} (hk : k ≠ .root) {i : Nat} {e : Ent k} (hid : entId k e = i)
    (h0 : i ≠ 0) (hlt : i < s.nextOf k) (hr : RefsOk s k e) :
    Grows s (s.withTab k ((s.tab k).insert i e)) := by
  have hget : ∀ k' j x, (s.withTab k ((s.tab k).insert i e)).tab k' j = some x → s.tab k' j = some x ∨
      ∃ hkk : k' = k, j = i ∧ hkk ▸ x = e := by
    intro k' j x hx
    by_cases hkk : k' = k
    · subst hkk
      rw [Store.tab_withTab] at hx
      simp only [IdMap.insert] at hx
      split at hx
      · rename_i hi; cases hx; exact .inr ⟨rfl, hi, rfl⟩
      · exact .inl hx
    · rw [Store.tab_withTab_ne _ _ hkk] at hx; exact .inl hx
  have hsome : ∀ k' j, (s.tab k' j).isSome = true → ((s.withTab k ((s.tab k).insert i e)).tab k' j).isSome = true := by
    intro k' j hj
    by_cases hkk : k' = k
    · subst hkk
      rw [Store.tab_withTab]
      simp only [IdMap.insert]
      split
      · rfl
      · exact hj
    · rw [Store.tab_withTab_ne _ _ hkk]; exact hj
  obtain ⟨r1, r2, _, _⟩ := withTab_rest s k ((s.tab k).insert i e)
  have hc : (s.withTab k ((s.tab k).insert i e)).counters = s.counters := Store.withTab_counters _ _ _
  refine ⟨⟨⟨?_, ?_, ?_, ?_, ?_, ?_⟩, ?_⟩, by rw [hc]; exact fun _ => Nat.le_refl _, fun k' j _ => hsome k' j⟩
  · intro k' j x hx
    rcases hget k' j x hx with h1 | ⟨rfl, rfl, rfl⟩
    · exact h.tidy.keyed k' j x h1
    · exact hid
  · intro k'
    cases hx : (s.withTab k ((s.tab k).insert i e)).tab k' 0 with
    | none => rfl
    | some x =>
      rcases hget k' 0 x hx with h1 | ⟨_, h1, _⟩
      · rw [h.tidy.positive] at h1; cases h1
      · exact absurd h1.symm h0
  · intro k' j x hx
    rcases hget k' j x hx with h1 | ⟨rfl, rfl, rfl⟩
    · exact (h.tidy.refs k' j x h1).mono hsome
    · exact hr.mono hsome
  · intro j hj
    rw [r1] at hj
    exact hsome .block j (h.tidy.runs j hj)
  · intro j hj
    rw [r2] at hj
    exact hsome .block j (h.tidy.images j hj)
  · have : (s.withTab k ((s.tab k).insert i e)).roots = s.roots :=
      Store.tab_withTab_ne _ _ (Ne.symm hk) (k' := .root)
    rw [this]; exact h.tidy.sole
  · intro k'
    rw [hc]
    refine ⟨(h.ahead k').1, fun j hj => ?_⟩
    obtain ⟨x, hx⟩ := Option.isSome_iff_exists.mp hj
    rcases hget k' j x hx with h1 | ⟨rfl, rfl, _⟩
    · exact (h.ahead k').2 j (by simp [h1])
    · exact hlt

/-- Overwriting an entity. -/
theorem Fine.over {s : Store} (h : Fine s) {k : EKind} (hk : k ≠ .root) {i : Nat} {o e : Ent k}
    (ho : s.tab k i = some o) (hid : entId k e = i) (hr : RefsOk s k e) :
    Grows s (s.withTab k ((s.tab k).insert i e)) :=
  h.put hk hid (h.pos ho) (h.lt ho) hr

/-- A block that can be written. -/
structure FitBlock (s : Store) (b : Block) : Prop where
  pos : b.id ≠ 0
  lt : b.id < s.nextOf .block
  list : ∀ l, b.list = some l → (s.lists l).isSome = true

theorem FitBlock.of {s : Store} (h : Fine s) {i : Nat} {b : Block} (hb : s.blocks i = some b) : FitBlock s b := by
  have hid : b.id = i := h.tidy.keyed .block i b hb
  refine ⟨hid ▸ h.pos (k := .block) hb, hid ▸ h.lt (k := .block) hb, fun l hl => ?_⟩
  exact (h.tidy.refs .block i b hb).mentions (.list, l) (by simp [mentions, hl])

theorem FitBlock.later {s t : Store} {K : EKind → Bool} (hK : K .list = true) (h : Leads K s t) {b : Block}
    (hb : FitBlock s b) : FitBlock t b :=
  ⟨hb.pos, Nat.lt_of_lt_of_le hb.lt (h.counters .block), fun l hl => h.keep .list l hK (hb.list l hl)⟩

theorem FitBlock.like {s : Store} {b c : Block} (h : FitBlock s b) (hi : c.id = b.id) (hl : c.list = b.list) :
    FitBlock s c := ⟨hi ▸ h.pos, hi ▸ h.lt, hl ▸ h.list⟩

theorem refs_block {s : Store} {b : Block} (h : ∀ l, b.list = some l → (s.lists l).isSome = true) :
    RefsOk s .block b := by
  refine ⟨by simp [owns], ?_, trivial⟩
  intro p hp
  simp only [mentions, List.mem_map, Option.mem_toList] at hp
  obtain ⟨l, hl, rfl⟩ := hp
  exact h l hl

theorem Fine.updateBlock {s : Store} (h : Fine s) {b : Block} (hb : FitBlock s b) : Grows s (s.updateBlock b) := by
  refine h.put (k := .block) (by decide) (i := b.id) ?_ hb.pos hb.lt ?_
  · cases h1 : s.blocks b.id <;> rfl
  · apply refs_block
    intro l hl
    cases h1 : s.blocks b.id with
    | none => rw [h1] at hl; exact hb.list l hl
    | some o => rw [h1] at hl; exact (FitBlock.of h h1).list l hl

theorem Fine.updateBlocks {s : Store} (h : Fine s) (bs : List Block) (hb : ∀ b ∈ bs, FitBlock s b) :
    Grows s (s.updateBlocks bs) := by
  induction bs generalizing s with
  | nil => exact .refl h
  | cons b bs ih =>
    have h1 := h.updateBlock (hb b (.head _))
    exact h1.trans (ih h1.fine fun c hc => (hb c (.tail _ hc)).later rfl h1)

theorem Fine.shiftStored {s : Store} (h : Fine s) (bs : List Block) (d : Int) (hb : ∀ b ∈ bs, FitBlock s b) :
    Grows s (s.shiftStored bs d) := by
  refine h.updateBlocks _ fun c hc => ?_
  obtain ⟨b, hb', rfl⟩ := List.mem_map.mp hc
  exact (hb b hb').like rfl rfl

theorem Fine.getBlocks {s : Store} (h : Fine s) (ids : List Nat) : ∀ b ∈ s.getBlocks ids, FitBlock s b := by
  intro b hb
  obtain ⟨i, _, hi⟩ := List.mem_filterMap.mp hb
  exact .of h hi

theorem Fine.updateDocument {s : Store} (h : Fine s) {d : Document} {i : Nat} (hi : d.id = i)
    (hd : (s.documents i).isSome = true) : Grows s (s.updateDocument d) := by
  subst hi
  obtain ⟨o, ho⟩ := Option.isSome_iff_exists.mp hd
  refine h.over (k := .document) (by decide) (o := o) ho ?_ ?_
  · rw [ho]; rfl
  · rw [ho]
    have := h.tidy.refs .document _ o ho
    exact ⟨this.owns, this.mentions, trivial⟩

theorem doc_id {s : Store} (h : Fine s) {i : Nat} {d : Document} (hd : s.documents i = some d) : d.id = i :=
  h.tidy.keyed .document i d hd

theorem Leads.updateDoc {K : EKind → Bool} {s t : Store} (g : Leads K s t) (hK : K .document = true) (h : Fine s)
    {did : Nat} {doc d : Document} (hdoc : s.documents did = some doc) (hd : d.id = doc.id) :
    Leads K s (t.updateDocument d) :=
  g.trans (.of (g.fine.updateDocument (hd.trans (doc_id h hdoc))
    (g.keep .document did hK (by rw [show s.tab .document did = _ from hdoc]; rfl))))

/-- A frame keeps its relationships; its order may name its blocks only. -/
theorem Fine.updateFrame {s : Store} (h : Fine s) {f o : Frame} (ho : s.frames f.id = some o)
    (hord : ∀ j ∈ f.childOrder, 0 < j → j.toNat ∈ o.blocks) : Grows s (s.updateFrame f) := by
  refine h.over (k := .frame) (by decide) (o := o) ho ?_ ?_
  · rw [ho]; rfl
  · rw [ho]
    have := h.tidy.refs .frame _ o ho
    exact ⟨this.owns, this.mentions, this.orders.1, hord⟩

theorem Fine.orders {s : Store} (h : Fine s) {i : Nat} {f : Frame} (hf : s.frames i = some f) :
    ∀ j ∈ f.childOrder, 0 < j → j.toNat ∈ f.blocks := (h.tidy.refs .frame i f hf).orders.2

theorem Fine.blocksOnce {s : Store} (h : Fine s) {i : Nat} {f : Frame} (hf : s.frames i = some f) :
    f.blocks.Nodup := (h.tidy.refs .frame i f hf).orders.1

theorem frame_id {s : Store} (h : Fine s) {i : Nat} {f : Frame} (hf : s.frames i = some f) : f.id = i :=
  h.tidy.keyed .frame i f hf

theorem block_id {s : Store} (h : Fine s) {i : Nat} {b : Block} (hb : s.blocks i = some b) : b.id = i :=
  h.tidy.keyed .block i b hb

/-! ### Formats -/

theorem Fine.formats {s t : Store} (h : Fine s) (ht : ∀ k, t.tab k = s.tab k) (hc : t.counters = s.counters)
    (hr : ∀ i, (t.formatRuns i).isSome = true → (s.blocks i).isSome = true)
    (hi : ∀ i, (t.blockImages i).isSome = true → (s.blocks i).isSome = true) : Grows s t := by
  have hb : t.blocks = s.blocks := ht .block
  have hro : t.roots = s.roots := ht .root
  refine ⟨⟨⟨?_, ?_, ?_, ?_, ?_, ?_⟩, ?_⟩, by rw [hc]; exact fun _ => Nat.le_refl _,
    fun k i _ h => by rw [ht]; exact h⟩
  · intro k i e he; rw [ht] at he; exact h.tidy.keyed k i e he
  · intro k; rw [ht]; exact h.tidy.positive k
  · intro k i e he; rw [ht] at he; exact (h.tidy.refs k i e he).congr fun k => (ht k).symm
  · rw [hb]; exact hr
  · rw [hb]; exact hi
  · rw [hro]; exact h.tidy.sole
  · intro k; rw [hc, ht]; exact h.ahead k

theorem Fine.setRuns {s : Store} (h : Fine s) {i : Nat} (hb : (s.blocks i).isSome = true)
    (v : List (Run CharFormat)) : Grows s { s with formatRuns := s.formatRuns.insert i v } := by
  refine h.formats (fun k => by cases k <;> rfl) rfl ?_ h.tidy.images
  intro j hj
  simp only [IdMap.insert] at hj
  split at hj
  · rename_i e; exact e ▸ hb
  · exact h.tidy.runs j hj

theorem Fine.setImages {s : Store} (h : Fine s) {i : Nat} (hb : (s.blocks i).isSome = true)
    (v : List (Img CharFormat)) : Grows s { s with blockImages := s.blockImages.insert i v } := by
  refine h.formats (fun k => by cases k <;> rfl) rfl h.tidy.runs ?_
  intro j hj
  simp only [IdMap.insert] at hj
  split at hj
  · rename_i e; exact e ▸ hb
  · exact h.tidy.images j hj

theorem Fine.editRuns {s : Store} (h : Fine s) {i : Nat} (hb : (s.blocks i).isSome = true)
    (f : List (Run CharFormat) → List (Run CharFormat)) : Grows s (s.editRuns i f) := h.setRuns hb _

theorem Fine.editImages {s : Store} (h : Fine s) {i : Nat} (hb : (s.blocks i).isSome = true)
    (f : List (Img CharFormat) → List (Img CharFormat)) : Grows s (s.editImages i f) := h.setImages hb _

theorem Fine.eraseFormats {s : Store} (h : Fine s) (i : Nat) :
    Grows s { s with formatRuns := s.formatRuns.erase i, blockImages := s.blockImages.erase i } := by
  refine h.formats (fun k => by cases k <;> rfl) rfl ?_ ?_
  · intro j hj
    simp only [IdMap.erase] at hj
    split at hj
    · cases hj
    · exact h.tidy.runs j hj
  · intro j hj
    simp only [IdMap.erase] at hj
    split at hj
    · cases hj
    · exact h.tidy.images j hj

theorem Fine.eraseRuns {s : Store} (h : Fine s) (i : Nat) :
    Grows s { s with formatRuns := s.formatRuns.erase i } := by
  refine h.formats (fun k => by cases k <;> rfl) rfl ?_ h.tidy.images
  intro j hj
  simp only [IdMap.erase] at hj
  split at hj
  · cases hj
  · exact h.tidy.runs j hj

/-! ### Creating -/

theorem Fine.new {s : Store} (h : Fine s) {k : EKind} (hk : k ≠ .root) {e : Ent k} (hr : RefsOk s k e) :
    Grows s ((s.nextId k.counter).2.withTab k
      (((s.nextId k.counter).2.tab k).insert (s.nextId k.counter).1 (entWithId k e (s.nextId k.counter).1))) := by
  have h1 := h.next k
  refine h1.trans (h1.fine.put hk (entId_withId _ _ _) ?_ ?_ ?_)
  · have := (h.ahead k).1
    show (s.counters k.counter).getD 1 ≠ 0
    omega
  · show (s.counters k.counter).getD 1 < _
    simp [Store.nextOf, Store.nextId]
  · exact (hr.withId _).mono fun k' i hi => h1.keep k' i rfl hi

theorem nextId_fresh {s : Store} (h : Fine s) (k : EKind) : s.tab k (s.nextId k.counter).1 = none := by
  cases he : s.tab k (s.nextId k.counter).1 with
  | none => rfl
  | some e => exact absurd (h.lt he) (Nat.lt_irrefl _)

theorem insertAtIndex_nodup {l : List Nat} {index : Int} {x : Nat} (h : l.Nodup) (hx : x ∉ l) :
    (Store.insertAtIndex l index x).Nodup := by
  unfold Store.insertAtIndex
  split
  · rename_i hi
    have hle : index.toNat ≤ l.length := by omega
    rw [(List.perm_insertIdx x l hle).nodup_iff]
    exact List.nodup_cons.mpr ⟨hx, h⟩
  · rw [List.nodup_append]
    exact ⟨h, by simp, fun a ha b hb e => hx (by simp at hb; exact hb ▸ e ▸ ha)⟩

theorem insertAtIndex_mem {l : List Nat} {index : Int} {x i : Nat} :
    i ∈ Store.insertAtIndex l index x ↔ i ∈ l ∨ i = x := by
  unfold Store.insertAtIndex
  split
  · rename_i h
    rw [List.mem_insertIdx (by omega)]
    constructor
    · rintro (h | h); exact .inr h; exact .inl h
    · rintro (h | h); exact .inr h; exact .inl h
  · simp

/-- What adding a new entity does. -/
structure NewEnt (s : Store) (k : EKind) (e : Ent k) (new : Nat) (t : Store) : Prop where
  grows : Grows s t
  here : t.tab k new = some (entWithId k e new)
  fresh : s.tab k new = none
  others : ∀ k', k' ≠ k → t.tab k' = s.tab k'
  old : ∀ i, i ≠ new → t.tab k i = s.tab k i

theorem Fine.newEnt {s : Store} (h : Fine s) {k : EKind} (hk : k ≠ .root) {e : Ent k} (hr : RefsOk s k e) :
    NewEnt s k e (s.nextId k.counter).1 ((s.nextId k.counter).2.withTab k
      (((s.nextId k.counter).2.tab k).insert (s.nextId k.counter).1 (entWithId k e (s.nextId k.counter).1))) := by
  refine ⟨h.new hk hr, ?_, nextId_fresh h k, ?_, ?_⟩
  · rw [Store.tab_withTab]; simp [IdMap.insert]
  · intro k' hk'
    rw [Store.tab_withTab_ne _ _ hk']
    cases k' <;> rfl
  · intro i hi
    rw [Store.tab_withTab]
    simp only [IdMap.insert]
    rw [if_neg hi]
    cases k <;> rfl

/-- What setting a list of ids does. -/
structure SetIds (s : Store) (k : EKind) (owner : Nat) (t : Store) : Prop where
  grows : Grows s t
  others : ∀ k', k' ≠ k → t.tab k' = s.tab k'
  old : ∀ i, i ≠ owner → t.tab k i = s.tab k i

theorem Fine.setIds {s : Store} (h : Fine s) {k : EKind} (hk : k ≠ .root) {owner : Nat} {o e : Ent k}
    (ho : s.tab k owner = some o) (hid : entId k e = entId k o) (hr : RefsOk s k e) :
    SetIds s k owner (s.withTab k ((s.tab k).insert owner e)) := by
  refine ⟨h.over hk ho (hid.trans (h.tidy.keyed k owner o ho)) hr, ?_, ?_⟩
  · intro k' hk'; rw [Store.tab_withTab_ne _ _ hk']
  · intro i hi
    rw [Store.tab_withTab]
    simp only [IdMap.insert]
    rw [if_neg hi]

theorem SetIds.refl {s : Store} (h : Fine s) {k : EKind} {owner : Nat} : SetIds s k owner s :=
  ⟨.refl h, fun _ _ => rfl, fun _ _ => rfl⟩

theorem Fine.setDocFrames {s t : Store} (h : Fine s) {owner : Nat} {ids : List Nat}
    (hs : s.setDocFrames owner ids = some t) : SetIds s .document owner t := by
  simp only [Store.setDocFrames] at hs
  split at hs
  · rename_i hall
    rw [List.all_eq_true] at hall
    split at hs
    · rename_i d hd
      cases hs
      have hr := h.tidy.refs .document owner d hd
      refine h.setIds (k := .document) (by decide) hd rfl ⟨fun p hp => ?_, by simp [mentions], trivial⟩
      have hr' := hr.owns p
      simp only [owns, List.mem_append, List.mem_map] at hp hr'
      rcases hp with ((⟨i, hi, rfl⟩ | h') | h') | h'
      · exact hall i hi
      · exact hr' (.inl (.inl (.inr h')))
      · exact hr' (.inl (.inr h'))
      · exact hr' (.inr h')
    · cases hs; exact .refl h
  · cases hs

theorem Fine.setDocLists {s t : Store} (h : Fine s) {owner : Nat} {ids : List Nat}
    (hs : s.setDocLists owner ids = some t) : SetIds s .document owner t := by
  simp only [Store.setDocLists] at hs
  split at hs
  · rename_i hall
    rw [List.all_eq_true] at hall
    split at hs
    · rename_i d hd
      cases hs
      have hr := h.tidy.refs .document owner d hd
      refine h.setIds (k := .document) (by decide) hd rfl ⟨fun p hp => ?_, by simp [mentions], trivial⟩
      have hr' := hr.owns p
      simp only [owns, List.mem_append, List.mem_map] at hp hr'
      rcases hp with ((h' | h') | ⟨i, hi, rfl⟩) | h'
      · exact hr' (.inl (.inl (.inl h')))
      · exact hr' (.inl (.inl (.inr h')))
      · exact hall i hi
      · exact hr' (.inr h')
    · cases hs; exact .refl h
  · cases hs

theorem Fine.setDocTables {s t : Store} (h : Fine s) {owner : Nat} {ids : List Nat}
    (hs : s.setDocTables owner ids = some t) : SetIds s .document owner t := by
  simp only [Store.setDocTables] at hs
  split at hs
  · rename_i hall
    rw [List.all_eq_true] at hall
    split at hs
    · rename_i d hd
      cases hs
      have hr := h.tidy.refs .document owner d hd
      refine h.setIds (k := .document) (by decide) hd rfl ⟨fun p hp => ?_, by simp [mentions], trivial⟩
      have hr' := hr.owns p
      simp only [owns, List.mem_append, List.mem_map] at hp hr'
      rcases hp with h' | ⟨i, hi, rfl⟩
      · exact hr' (.inl h')
      · exact hall i hi
    · cases hs; exact .refl h
  · cases hs

theorem Fine.setTableCells {s t : Store} (h : Fine s) {owner : Nat} {ids : List Nat}
    (hs : s.setTableCells owner ids = some t) : SetIds s .table owner t := by
  simp only [Store.setTableCells] at hs
  split at hs
  · rename_i hall
    rw [List.all_eq_true] at hall
    split at hs
    · rename_i d hd
      cases hs
      refine h.setIds (k := .table) (by decide) hd rfl ⟨fun p hp => ?_, by simp [mentions], trivial⟩
      simp only [owns, List.mem_map] at hp
      obtain ⟨i, hi, rfl⟩ := hp
      exact hall i hi
    · cases hs; exact .refl h
  · cases hs

theorem Fine.setFrameBlocks {s t : Store} (h : Fine s) {owner : Nat} {ids : List Nat}
    (hsub : ∀ i ∈ s.frameBlocks owner, i ∈ ids) (hnd : ids.Nodup)
    (hs : s.setFrameBlocks owner ids = some t) : SetIds s .frame owner t ∧
      ∀ f, s.frames owner = some f → t.frames owner = some { f with blocks := ids } := by
  simp only [Store.setFrameBlocks] at hs
  split at hs
  · rename_i hall
    rw [List.all_eq_true] at hall
    split at hs
    · rename_i f hf
      cases hs
      have hr := h.tidy.refs .frame owner f hf
      refine ⟨h.setIds (k := .frame) (by decide) hf rfl ⟨fun p hp => ?_, hr.mentions, ?_⟩, ?_⟩
      · simp only [owns, List.mem_map] at hp
        obtain ⟨i, hi, rfl⟩ := hp
        exact hall i hi
      · refine ⟨hnd, fun j hj hp => ?_⟩
        refine hsub _ ?_
        simpa [Store.frameBlocks, hf] using hr.orders.2 j hj hp
      · intro f' hf'
        rw [hf] at hf'; cases hf'
        simp [IdMap.insert]
    · rename_i hf
      cases hs
      refine ⟨.refl h, fun f hf' => ?_⟩
      rw [hf] at hf'; cases hf'
  · cases hs

theorem Fine.setBlockList {s t : Store} (h : Fine s) {id : Nat} {list : Option Nat}
    (hs : s.setBlockList id list = some t) : SetIds s .block id t := by
  simp only [Store.setBlockList] at hs
  split at hs
  · rename_i hall
    split at hs
    · rename_i b hb
      cases hs
      refine h.setIds (k := .block) (by decide) hb rfl (refs_block fun l hl => ?_)
      simp only at hl
      subst hl
      simpa using hall
    · cases hs; exact .refl h
  · cases hs

theorem setFrameBlocks_absent {s t : Store} {owner : Nat} {ids : List Nat} (h : s.frames owner = none)
    (hs : s.setFrameBlocks owner ids = some t) : t.frames owner = none := by
  simp only [Store.setFrameBlocks, h] at hs
  split at hs
  · cases hs; exact h
  · cases hs

/-- What creating a block does. -/
structure MadeBlock (s : Store) (owner new : Nat) (t : Store) : Prop where
  grows : Grows s t
  here : (t.blocks new).isSome = true
  fresh : s.blocks new = none
  owned : ∀ f, s.frames owner = some f → ∃ l, t.frames owner = some { f with blocks := l } ∧
    new ∈ l ∧ ∀ i ∈ f.blocks, i ∈ l
  absent : s.frames owner = none → t.frames owner = none
  frames : ∀ i, i ≠ owner → t.frames i = s.frames i
  others : ∀ k, k ≠ .block → k ≠ .frame → t.tab k = s.tab k

theorem Fine.createBlock {s t : Store} (h : Fine s) {b : Block} (h0 : b.id = 0)
    (hl : ∀ l, b.list = some l → (s.lists l).isSome = true) {owner new : Nat} {index : Int}
    (hc : s.createBlock b owner index = some (new, t)) : MadeBlock s owner new t := by
  simp only [Store.createBlock, Option.bind_eq_some_iff, Option.map_eq_some_iff] at hc
  obtain ⟨⟨n, s1⟩, hn, t', ht, he⟩ := hc
  cases he
  have h1 : NewEnt s .block b n s1 := by
    simp only [Store.insertNewBlock, h0, if_true] at hn
    cases hn
    exact h.newEnt (k := .block) (by decide) (refs_block hl)
  have hf1 : s1.frames = s.frames := h1.others .frame (by decide)
  have hnd : (Store.insertAtIndex (s1.frameBlocks owner) index n).Nodup := by
    simp only [Store.frameBlocks, hf1]
    cases hfo : s.frames owner with
    | none => exact insertAtIndex_nodup List.nodup_nil (by simp)
    | some f =>
      refine insertAtIndex_nodup (h.blocksOnce hfo) fun hm => ?_
      have := (h.tidy.refs .frame owner f hfo).owns (.block, n) (by simpa [owns] using hm)
      rw [h1.fresh] at this
      cases this
  obtain ⟨h2, h3⟩ := h1.grows.fine.setFrameBlocks (fun i hi => insertAtIndex_mem.mpr (.inl hi)) hnd ht
  refine ⟨h1.grows.trans h2.grows, ?_, h1.fresh, ?_, ?_, ?_, ?_⟩
  · refine h2.grows.keep .block _ rfl ?_
    rw [h1.here]; rfl
  · intro f hf
    rw [← hf1] at hf
    refine ⟨_, h3 f hf, insertAtIndex_mem.mpr (.inr rfl), fun i hi => insertAtIndex_mem.mpr (.inl ?_)⟩
    simpa [Store.frameBlocks, hf] using hi
  · intro hf
    rw [← hf1] at hf
    exact setFrameBlocks_absent hf ht
  · intro i hi
    rw [← hf1]
    exact h2.old i hi
  · intro k a b
    rw [h2.others k b, h1.others k a]

/-- What creating an entity of another kind does. -/
structure MadeEnt (s : Store) (k : EKind) (e : Ent k) (new : Nat) (t : Store) : Prop where
  grows : Grows s t
  here : t.tab k new = some (entWithId k e new)
  fresh : s.tab k new = none
  others : ∀ k', k' ≠ k → k' ≠ .document → k' ≠ .table → t.tab k' = s.tab k'
  old : ∀ i, i ≠ new → t.tab k i = s.tab k i

theorem NewEnt.made {s t u : Store} {k k' : EKind} {e : Ent k} {new owner : Nat} (h : NewEnt s k e new t)
    (hk : k ≠ k') (hk' : k' = .document ∨ k' = .table) (h2 : SetIds t k' owner u) : MadeEnt s k e new u := by
  have hu : u.tab k = t.tab k := h2.others k hk
  refine ⟨h.grows.trans h2.grows, by rw [hu]; exact h.here, h.fresh, ?_, by rw [hu]; exact h.old⟩
  intro k'' a b c
  rw [h2.others k'' (by rcases hk' with rfl | rfl <;> assumption), h.others k'' a]

theorem refs_frame {s : Store} {f : Frame} (hb : f.blocks = []) (hc : f.childOrder = [])
    (hp : ∀ p, f.parentFrame = some p → (s.frames p).isSome = true)
    (ht : ∀ t, f.table = some t → (s.tables t).isSome = true) : RefsOk s .frame f := by
  refine ⟨by simp [owns, hb], ?_, ?_⟩
  · intro p h
    simp only [mentions, List.mem_append, List.mem_map, Option.mem_toList] at h
    rcases h with ⟨i, hi, rfl⟩ | ⟨i, hi, rfl⟩
    · exact hp i hi
    · exact ht i hi
  · refine ⟨by rw [hb]; exact List.nodup_nil, fun j hj => ?_⟩
    rw [hc] at hj; cases hj

theorem Fine.createFrame {s t : Store} (h : Fine s) {f : Frame} (h0 : f.id = 0) (hb : f.blocks = [])
    (hco : f.childOrder = []) (hp : ∀ p, f.parentFrame = some p → (s.frames p).isSome = true)
    (htb : ∀ t, f.table = some t → (s.tables t).isSome = true) {owner new : Nat} {index : Int}
    (hc : s.createFrame f owner index = some (new, t)) : MadeEnt s .frame f new t := by
  simp only [Store.createFrame, Option.bind_eq_some_iff, Option.map_eq_some_iff] at hc
  obtain ⟨⟨n, s1⟩, hn, t', ht, he⟩ := hc
  cases he
  have h1 : NewEnt s .frame f n s1 := by
    simp only [Store.insertNewFrame, h0, if_true] at hn
    cases hn
    exact h.newEnt (k := .frame) (by decide) (refs_frame hb hco hp htb)
  exact h1.made (by decide) (.inl rfl) (h1.grows.fine.setDocFrames ht)

theorem Fine.createList {s t : Store} (h : Fine s) {l : TList} (h0 : l.id = 0) {owner new : Nat} {index : Int}
    (hc : s.createListEntity l owner index = some (new, t)) : MadeEnt s .list l new t := by
  simp only [Store.createListEntity, Option.bind_eq_some_iff, Option.map_eq_some_iff] at hc
  obtain ⟨⟨n, s1⟩, hn, t', ht, he⟩ := hc
  cases he
  have h1 : NewEnt s .list l n s1 := by
    simp only [Store.insertNewList, h0, if_true] at hn
    cases hn
    exact h.newEnt (k := .list) (by decide) ⟨by simp [owns], by simp [mentions], trivial⟩
  exact h1.made (by decide) (.inl rfl) (h1.grows.fine.setDocLists ht)

theorem Fine.createTable {s t : Store} (h : Fine s) {x : Table} (hce : x.cells = []) {owner new : Nat}
    {index : Int} (hc : s.createTable x owner index = some (new, t)) : MadeEnt s .table x new t := by
  simp only [Store.createTable, Option.map_eq_some_iff] at hc
  obtain ⟨t', ht, he⟩ := hc
  cases he
  have h1 : NewEnt s .table x (s.insertNewTable x).1 (s.insertNewTable x).2 :=
    h.newEnt (k := .table) (by decide) ⟨by simp [owns, hce], by simp [mentions], trivial⟩
  exact h1.made (by decide) (.inl rfl) (h1.grows.fine.setDocTables ht)

theorem Fine.createCell {s t : Store} (h : Fine s) {c : TableCell}
    (hf : ∀ f, c.cellFrame = some f → (s.frames f).isSome = true) {owner new : Nat} {index : Int}
    (hc : s.createCell c owner index = some (new, t)) : MadeEnt s .tableCell c new t := by
  have hrc : RefsOk s .tableCell c := by
    refine ⟨by simp [owns], ?_, trivial⟩
    intro p hp
    simp only [mentions, List.mem_map, Option.mem_toList] at hp
    obtain ⟨i, hi, rfl⟩ := hp
    exact hf i hi
  simp only [Store.createCell, Option.map_eq_some_iff] at hc
  obtain ⟨t', ht, he⟩ := hc
  cases he
  have h1 : NewEnt s .tableCell c (s.insertNewCell c).1 (s.insertNewCell c).2 :=
    h.newEnt (k := .tableCell) (by decide) hrc
  exact h1.made (by decide) (.inr rfl) (h1.grows.fine.setTableCells ht)

/-! ### Cells and tables -/

theorem Fine.updateTable {s : Store} (h : Fine s) {x : Table} (hx : (s.tables x.id).isSome = true) :
    Grows s (s.updateTable x) := by
  obtain ⟨o, ho⟩ := Option.isSome_iff_exists.mp hx
  refine h.over (k := .table) (by decide) (o := o) ho ?_ ?_
  · rw [ho]; rfl
  · rw [ho]
    have := h.tidy.refs .table _ o ho
    exact ⟨this.owns, this.mentions, trivial⟩

theorem Fine.updateCell {s : Store} (h : Fine s) {x : TableCell} (hx : (s.tableCells x.id).isSome = true) :
    Grows s (s.updateCell x) := by
  obtain ⟨o, ho⟩ := Option.isSome_iff_exists.mp hx
  refine h.over (k := .tableCell) (by decide) (o := o) ho ?_ ?_
  · rw [ho]; rfl
  · rw [ho]
    have := h.tidy.refs .tableCell _ o ho
    exact ⟨this.owns, this.mentions, trivial⟩

theorem Fine.updateCells {s : Store} (h : Fine s) (cs : List TableCell)
    (hc : ∀ c ∈ cs, (s.tableCells c.id).isSome = true) : Grows s (s.updateCells cs) := by
  induction cs generalizing s with
  | nil => exact .refl h
  | cons c cs ih =>
    have h1 := h.updateCell (hc c (.head _))
    exact h1.trans (ih h1.fine fun d hd => h1.keep .tableCell _ rfl (hc d (.tail _ hd)))

/-- A frame written back with another parent. -/
theorem Fine.adopt {s : Store} (h : Fine s) {a : Nat} (ha : (s.frames a).isSome = true) (g : Nat) :
    Grows s (Store.adopt a s g) := by
  unfold Store.adopt
  split
  · rename_i f hf
    have hr := h.tidy.refs .frame g f hf
    refine h.over (k := .frame) (by decide) (i := f.id) (o := f) ?_ rfl ⟨hr.owns, ?_, hr.orders⟩
    · rw [frame_id h hf]; exact hf
    · intro p hp
      have := hr.mentions p
      simp only [mentions, List.mem_append, List.mem_map, Option.mem_toList, Option.some.injEq] at hp this
      rcases hp with ⟨i, rfl, rfl⟩ | hp
      · exact ha
      · exact this (.inr hp)
  · exact .refl h

theorem Fine.adoptAll {s : Store} (h : Fine s) {a : Nat} (ha : (s.frames a).isSome = true) (gs : List Nat) :
    Grows s (gs.foldl (Store.adopt a) s) := by
  induction gs generalizing s with
  | nil => exact .refl h
  | cons g gs ih =>
    have h1 := h.adopt ha g
    exact h1.trans (ih h1.fine (h1.keep .frame _ rfl ha))

end Verif

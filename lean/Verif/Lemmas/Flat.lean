import Verif.Lemmas.ShowsEdit
/- Documents of one frame: what the commands find when they walk them. -/
namespace Verif

variable {s : Store} {d : Document} {f : Nat} {ps L R M : List SPara} {p : SPara} {a b m : List SChar}

theorem mapOpt_map {α β γ : Type} {g : β → Option γ} {k : α → β} {h : α → γ} (l : List α)
    (hg : ∀ x ∈ l, g (k x) = some (h x)) : mapOpt g (l.map k) = some (l.map h) := by
  induction l with
  | nil => rfl
  | cons x l ih =>
    simp only [List.map_cons, mapOpt]
    rw [hg x (by simp), ih fun y hy => hg y (by simp [hy])]
    rfl

theorem mapOpt_eq {α γ : Type} {g : α → Option γ} {h : α → γ} (l : List α)
    (hg : ∀ x ∈ l, g x = some (h x)) : mapOpt g l = some (l.map h) := by
  have := mapOpt_map (k := id) l hg
  simpa using this

namespace Flat

theorem docFrames (h : Flat s d f ps) : s.docFrames d.id = [f] := by
  simp [Store.docFrames, h.document, h.frames]

theorem docTables (h : Flat s d f ps) : s.docTables d.id = [] := by
  simp [Store.docTables, h.document, h.tables]

theorem flowIds (h : Flat s d f ps) : s.flowIds f = some (ps.map SPara.id) := by
  obtain ⟨fr, h1, h2, h3, h4⟩ := h.frame
  unfold Store.flowIds Store.collectBlockIds
  have hne : ¬ fr.childOrder = [] := by
    rw [h3]; simp [h.nonempty]
  rw [h1, Option.bind_some, if_neg hne, h3]
  rw [mapOpt_map (h := fun p : SPara => [p.id]) ps]
  · simp only [Option.map_some]
    congr 1
    clear h1 h2 h3 h4 hne h
    induction ps with
    | nil => rfl
    | cons x xs ih => simp [ih]
  · intro q hq
    have := h.positive q hq
    rw [if_pos (by omega)]
    simp

theorem flowBlocks (h : Flat s d f ps) : s.flowBlocks d.id = some (ps.map SPara.id) := by
  unfold Store.flowBlocks
  rw [h.docFrames]
  simp [h.flowIds]

/-- Same paragraphs, same frames: still flat. -/
theorem of_shell {s' : Store} {d' : Document} {ps' : List SPara} (h : Flat s d f ps)
    (hs : Shows s' d' ps') (hsh : SameShell s s') (hcnt : s'.counters = s.counters) (hids : ps'.map SPara.id = ps.map SPara.id)
    (hf : d'.frames = d.frames) (ht : d'.tables = d.tables) : Flat s' d' f ps' := by
  refine { hs with frames := ?_, tables := ?_, frame := ?_, others := ?_, positive := ?_, nonempty := ?_, plain := ?_ }
  · rw [hf, h.frames]
  · rw [ht, h.tables]
  · obtain ⟨fr, h1, h2, h3, h4⟩ := h.frame
    refine ⟨fr, by rw [hsh.frames]; exact h1, h2, ?_, by rw [hids]; exact h4⟩
    rw [h3]
    have := congrArg (List.map (fun n : Nat => (n : Int))) hids
    simpa [Function.comp_def] using this.symm
  · intro g fr hg
    rw [hsh.frames] at hg
    have hn : s'.next "block" = s.next "block" := by simp [Store.next, hcnt]
    rw [hids, hn]; exact h.others g fr hg
  · intro q hq
    have : q.id ∈ ps.map SPara.id := by rw [← hids]; exact List.mem_map_of_mem hq
    obtain ⟨x, hx, e⟩ := List.mem_map.mp this
    rw [← e]; exact h.positive x hx
  · rintro rfl
    simp at hids
    exact h.nonempty hids
  · rw [hsh.frames]; exact h.plain

end Flat

theorem Shows.getBlocks (h : Shows s d ps) :
    s.getBlocks (ps.map SPara.id) = ps.map fun p => p.entity (s.storedPos p) := by
  unfold Store.getBlocks
  rw [List.filterMap_map]
  have : ∀ l : List SPara, (∀ q ∈ l, q ∈ ps) →
      l.filterMap ((fun i => s.blocks i) ∘ SPara.id) = l.map fun p => p.entity (s.storedPos p) := by
    intro l
    induction l with
    | nil => intro _; rfl
    | cons x l ih =>
      intro hl
      have hx : ((fun i => s.blocks i) ∘ SPara.id) x = some (x.entity (s.storedPos x)) :=
        h.stored (hl x (by simp))
      rw [List.filterMap_cons_some hx, ih fun q hq => hl q (by simp [hq])]
      rfl
  exact this ps fun q hq => hq

/-- A list of blocks that are the entities of the paragraphs `ps`, each exactly once. -/
structure Entities (ps : List SPara) (blocks : List Block) : Prop where
  all : ∀ x ∈ blocks, ∃ q ∈ ps, IsBlock q x
  has : ∀ q ∈ ps, ∃ x ∈ blocks, x.id = q.id

theorem Entities.of_map (ps : List SPara) (g : SPara → Int) :
    Entities ps (ps.map fun q => q.entity (g q)) := by
  constructor
  · intro x hx
    obtain ⟨q, hq, rfl⟩ := List.mem_map.mp hx
    exact ⟨q, hq, rfl⟩
  · intro q hq
    exact ⟨q.entity (g q), List.mem_map.mpr ⟨q, hq, rfl⟩, rfl⟩

theorem Entities.sort {blocks : List Block} (h : Entities ps blocks) :
    Entities ps (sortByKey Block.documentPosition blocks) := by
  constructor
  · intro x hx; exact h.all x (mem_sortByKey.mp hx)
  · intro q hq
    obtain ⟨x, hx, e⟩ := h.has q hq
    exact ⟨x, mem_sortByKey.mpr hx, e⟩

theorem Entities.find {blocks : List Block} (h : Entities ps blocks) (hp : p ∈ ps) :
    ∃ i, blocks.findIdx? (fun x => x.id == p.id) = some i := by
  obtain ⟨x, hx, e⟩ := h.has p hp
  cases hf : blocks.findIdx? (fun x => x.id == p.id) with
  | some i => exact ⟨i, rfl⟩
  | none =>
    rw [List.findIdx?_eq_none_iff] at hf
    have := hf x hx
    simp [e] at this

/-- `find_block_at_position` on a list of the document's blocks in any order. -/
theorem Shows.findIn {blocks : List Block} {i : Nat} (h : Shows s d (L ++ p :: R))
    (hc : p.chars = a ++ b) (hE : Entities (L ++ p :: R) blocks)
    (hi : blocks.findIdx? (fun x => x.id == p.id) = some i) :
    s.findBlockAtPosition blocks ((charsBefore (paras L) + a.length : Nat) : Int) =
      some (p.entity (charsBefore (paras L)), i, (a.length : Int)) := by
  have hi' := hi
  rw [List.findIdx?_eq_some_iff_getElem] at hi'
  obtain ⟨hlt, hxi, _⟩ := hi'
  have hxid : blocks[i].id = p.id := by simpa using hxi
  obtain ⟨q, hq, hqb⟩ := hE.all blocks[i] (List.getElem_mem hlt)
  have hqid : blocks[i].id = q.id := by rw [hqb]
  have : q = p := h.unique (by simp) hq (by rw [← hqid, hxid])
  subst this
  have hget : blocks[i]? = some blocks[i] := List.getElem?_eq_getElem hlt
  unfold Store.findBlockAtPosition
  rw [h.find hc, Option.bind_some]
  simp only [Option.bind_some, hi, hget, Option.map_some]
  rw [hqb.with_pos]

/-- Moving stored positions changes nothing that shows. -/
theorem Shows.shiftStored {bs : List Block} (x : Int) (h : Shows s d ps)
    (hb : ∀ b ∈ bs, ∃ q ∈ ps, IsBlock q b) :
    Shows (s.shiftStored bs x) d ps ∧ SameShell s (s.shiftStored bs x) ∧
      (s.shiftStored bs x).counters = s.counters ∧
      (s.shiftStored bs x).documents = s.documents := by
  unfold Store.shiftStored
  have hu := updateBlocks_shell s (bs.map fun b => { b with documentPosition := b.documentPosition + x })
  refine ⟨h.updateBlocks ?_, hu.1, hu.2.2, hu.2.1⟩
  intro b hb'
  obtain ⟨b0, hb0, rfl⟩ := List.mem_map.mp hb'
  obtain ⟨q, hq, hqb⟩ := hb b0 hb0
  refine ⟨q, hq, ?_⟩
  rw [hqb.with_pos]
  exact isBlock_entity q _

theorem Entities.change {blocks : List Block} {cs : List SChar}
    (h : Entities (L ++ p :: R) blocks) : Entities (L ++ { p with chars := cs } :: R) blocks := by
  constructor
  · intro x hx
    obtain ⟨q, hq, hqb⟩ := h.all x hx
    simp only [List.mem_append, List.mem_cons] at hq
    rcases hq with hq | rfl | hq
    · exact ⟨q, by simp [hq], hqb⟩
    · exact ⟨{ q with chars := cs }, by simp, hqb⟩
    · exact ⟨q, by simp [hq], hqb⟩
  · intro q hq
    simp only [List.mem_append, List.mem_cons] at hq
    rcases hq with hq | rfl | hq
    · exact h.has q (by simp [hq])
    · exact h.has p (by simp)
    · exact h.has q (by simp [hq])

/-- `insert_text` over a selection inside one paragraph. -/
theorem Flat.insertWithSelection {dto : Store.InsertTextDto} (h : Flat s d f (L ++ p :: R))
    (hc : p.chars = a ++ m ++ b)
    (hstart : min dto.position dto.anchor = ((charsBefore (paras L) + a.length : Nat) : Int))
    (hstop : max dto.position dto.anchor =
      ((charsBefore (paras L) + (a.length + m.length) : Nat) : Int)) :
    ∃ s', s.insertWithSelection dto = some (s',
        ⟨min dto.position dto.anchor + dto.text.length, 1⟩, .selection s.snapshot) ∧
      Flat s' { d with characterCount := d.characterCount - m.length + dto.text.length } f
        (L ++ { p with chars := a ++ styled dto.text (inheritFmt a) ++ b } :: R) ∧
      SameShell s s' ∧ s'.counters = s.counters := by
  have hpm : p ∈ L ++ p :: R := by simp
  have hE : Entities (L ++ p :: R) (s.getBlocks ((L ++ p :: R).map SPara.id)) := by
    rw [h.getBlocks]; exact .of_map _ _
  have hES := hE.sort
  obtain ⟨i, hi⟩ := hES.find hpm
  have hf1 := h.toShows.findIn (a := a) (b := m ++ b) (by simp [hc]) hES hi
  have hf2 := h.toShows.findIn (a := a ++ m) (b := b) (by simp [hc]) hES hi
  rw [List.length_append] at hf2
  obtain ⟨s1, e1, hs1, hd1, hc1, hsh1⟩ := h.toShows.deleteRange hc (isBlock_entity p (charsBefore (paras L)))
  have hs2 := hs1.updateDocument (d' := { d with characterCount := d.characterCount - m.length }) rfl
  have hdrop : ∀ x ∈ (sortByKey Block.documentPosition (s.getBlocks ((L ++ p :: R).map SPara.id))).drop (i + 1),
      ∃ q ∈ L ++ { p with chars := a ++ b } :: R, IsBlock q x := fun x hx =>
    (hES.change (cs := a ++ b)).all x (List.mem_of_mem_drop hx)
  obtain ⟨hs3, hsh3, hc3, hd3⟩ := hs2.shiftStored (-(m.length : Int)) hdrop
  unfold Store.insertWithSelection
  rw [h.docId, Option.bind_some, h.document, Option.bind_some]
  dsimp only
  rw [h.flowBlocks, Option.bind_some, hstart, hf1, Option.bind_some]
  dsimp only
  rw [hstop, hf2, Option.bind_some]
  dsimp only
  rw [if_neg (by simp), e1, Option.bind_some]
  dsimp only
  -- the second half
  generalize hS3 : ((s1.updateDocument { d with characterCount := d.characterCount - m.length }).shiftStored
    ((sortByKey Block.documentPosition (s.getBlocks ((L ++ p :: R).map SPara.id))).drop (i + 1))
    (-(m.length : Int))) = s3 at *
  have hids : (L ++ { p with chars := a ++ b } :: R).map SPara.id = (L ++ p :: R).map SPara.id := by simp
  have hE3 : Entities (L ++ { p with chars := a ++ b } :: R) (s3.getBlocks ((L ++ p :: R).map SPara.id)) := by
    rw [← hids, hs3.getBlocks]; exact .of_map _ _
  have hES3 := hE3.sort
  obtain ⟨j, hj⟩ := hES3.find (p := { p with chars := a ++ b }) (by simp)
  have hf3 := hs3.findIn (a := a) (b := b) rfl hES3 hj
  have hdoc3 := hs3.document
  change s3.documents d.id = some _ at hdoc3
  rw [hdoc3, Option.bind_some, hf3, Option.bind_some]
  dsimp only
  obtain ⟨s4, e4, hs4, hd4, hb4, hc4, hsh4⟩ := hs3.insertInto (a := a) (b := b) dto.text rfl
    (isBlock_entity ({ p with chars := a ++ b } : SPara) (charsBefore (paras L)))
  rw [e4, Option.bind_some]
  dsimp only
  have hdrop4 : ∀ x ∈ (sortByKey Block.documentPosition (s3.getBlocks ((L ++ p :: R).map SPara.id))).drop (j + 1),
      ∃ q ∈ L ++ { p with chars := a ++ styled dto.text (inheritFmt a) ++ b } :: R, IsBlock q x :=
    fun x hx => by
      have := (hES3.change (p := { p with chars := a ++ b })
        (cs := a ++ styled dto.text (inheritFmt a) ++ b)).all x (List.mem_of_mem_drop hx)
      exact this
  obtain ⟨hs5, hsh5, hc5, hd5⟩ := hs4.shiftStored (dto.text.length : Int) hdrop4
  have hs6 := hs5.updateDocument (d' := { d with characterCount := d.characterCount - m.length + dto.text.length }) rfl
  have hshell : SameShell s ((s4.shiftStored
      ((sortByKey Block.documentPosition (s3.getBlocks ((L ++ p :: R).map SPara.id))).drop (j + 1))
      (dto.text.length : Int)).updateDocument
        { d with characterCount := d.characterCount - m.length + dto.text.length }) := by
    refine hsh1.trans (SameShell.trans ?_ (hsh3.trans (hsh4.trans (hsh5.trans ?_)))) <;>
      exact ⟨rfl, rfl, rfl, rfl, rfl, rfl⟩
  have hcnt : (s4.shiftStored
      ((sortByKey Block.documentPosition (s3.getBlocks ((L ++ p :: R).map SPara.id))).drop (j + 1))
      (dto.text.length : Int)).counters = s.counters := by
    rw [hc5, hc4, hc3]; exact hc1
  refine ⟨_, ?_, h.of_shell hs6 hshell hcnt ?_ rfl rfl, hshell, hcnt⟩
  · congr 2
  · simp

end Verif

import Verif.Lemmas.OrderPaste
import Verif.Model.PlainText
import Verif.Model.ImportMarkup
/-
Loading a document leaves a store in good order.
-/
namespace Verif

/-! ### Frames keep their blocks -/

/-- Nothing goes, and every frame keeps its blocks. -/
structure Steady (s t : Store) : Prop where
  grows : Grows s t
  owned : ∀ i f, s.frames i = some f → ∃ g, t.frames i = some g ∧ ∀ b ∈ f.blocks, b ∈ g.blocks

theorem Steady.refl {s : Store} (h : Fine s) : Steady s s := ⟨.refl h, fun _ f hf => ⟨f, hf, fun _ h => h⟩⟩

theorem Steady.trans {s t u : Store} (h : Steady s t) (h' : Steady t u) : Steady s u := by
  refine ⟨h.grows.trans h'.grows, fun i f hf => ?_⟩
  obtain ⟨g, hg, h1⟩ := h.owned i f hf
  obtain ⟨k, hk, h2⟩ := h'.owned i g hg
  exact ⟨k, hk, fun b hb => h2 b (h1 b hb)⟩

theorem Steady.same {s t : Store} (h : Grows s t) (ht : t.frames = s.frames) : Steady s t :=
  ⟨h, fun _ f hf => ⟨f, by rw [ht]; exact hf, fun _ h => h⟩⟩

theorem MadeBlock.steady {s t : Store} {owner new : Nat} (m : MadeBlock s owner new t) : Steady s t := by
  refine ⟨m.grows, fun i f hf => ?_⟩
  by_cases hi : i = owner
  · subst hi
    obtain ⟨l, hl, _, ho⟩ := m.owned f hf
    exact ⟨_, hl, ho⟩
  · exact ⟨f, by rw [m.frames i hi]; exact hf, fun _ h => h⟩

theorem MadeEnt.steadyFrame {s t : Store} {f : Frame} {new : Nat} (m : MadeEnt s .frame f new t) : Steady s t := by
  refine ⟨m.grows, fun i g hg => ⟨g, ?_, fun _ h => h⟩⟩
  have hi : i ≠ new := by
    rintro rfl
    have := m.fresh
    rw [show s.tab .frame i = _ from hg] at this; cases this
  rw [show t.frames i = _ from m.old i hi]; exact hg

theorem Fine.steadyUpdate {s : Store} (h : Fine s) {f o : Frame} (ho : s.frames f.id = some o)
    (hord : ∀ j ∈ f.childOrder, 0 < j → j.toNat ∈ o.blocks) : Steady s (s.updateFrame f) := by
  refine ⟨h.updateFrame ho hord, fun i g hg => ?_⟩
  by_cases hi : i = f.id
  · subst hi
    rw [ho] at hg; cases hg
    exact ⟨Store.keepFrame f (some o), by simp [Store.updateFrame, IdMap.insert, ho], fun b hb => hb⟩
  · exact ⟨g, by simp only [Store.updateFrame, IdMap.insert]; rw [if_neg hi]; exact hg, fun _ h => h⟩

/-! ### Plain text -/

theorem Fine.importLines {s t : Store} (h : Fine s) {fid : Nat} {first : Bool} {pos : Int} {ls : List (List Char)}
    {ids : List Nat} {n : Nat} {f : Frame} {old : List Nat} (hh : HasBlocks s fid f old)
    (hi : Store.importLines fid first pos ls s = some (ids, n, t)) : Grows s t ∧ HasBlocks t fid f (ids ++ old) := by
  induction ls generalizing s first pos ids n old with
  | nil => cases hi; exact ⟨.refl h, hh⟩
  | cons l ls ih =>
    simp only [Store.importLines, Option.bind_eq_some_iff, Option.map_eq_some_iff] at hi
    obtain ⟨⟨id, s1⟩, h1, ⟨ids2, n2, s2⟩, h2, he⟩ := hi
    cases he
    have m := createBlock_made h1 h rfl (fun l hl => by cases hl)
    have g := m.grows.trans (m.grows.fine.withText
      (ropeAppendBlock (if first then s1.text else ropeInsertBlockBoundary s1.text) id l))
    obtain ⟨a, b⟩ := ih g.fine ((m.holds hh rfl).same rfl) h2
    refine ⟨g.trans a, b.sub fun i hi => ?_⟩
    simp only [List.cons_append, List.mem_cons, List.mem_append] at hi ⊢
    rcases hi with hi | hi | hi
    · exact .inr (.inl hi)
    · exact .inl hi
    · exact .inr (.inr hi)

theorem Fine.importPlainText {s t : Store} (h : Fine s) {text : List Char} (hi : s.importPlainText text = some t) :
    Leads notFrames s t := by
  simp only [Store.importPlainText, Option.bind_eq_some_iff, Option.map_eq_some_iff] at hi
  obtain ⟨did, _, s1, h1, ⟨fid, s2⟩, h2, ⟨ids, total, s3⟩, h3, frame, hf, doc, hdoc, he⟩ := hi
  have a1 := h.removeFrames h1
  have m := a1.fine.createFrame rfl rfl rfl (fun _ h => by cases h) (fun _ h => by cases h) h2
  have a2 := m.grows.trans (m.grows.fine.withText ropeReset)
  obtain ⟨a3, b3⟩ := a2.fine.importLines ((HasBlocks.of (show s2.frames fid = _ from m.here)).same
    (t := s2.withText ropeReset) rfl) h3
  obtain ⟨o, ho, _, hids⟩ := b3
  have ho' : o = frame := Option.some.inj (ho.symm.trans hf)
  subst ho'
  have a4 := a2.trans a3
  have a5 := a4.trans (a4.fine.updateFrame (f := { o with childOrder := ids.map fun i : Nat => (i : Int) }) (o := o)
    (by rw [← hf]; exact congrArg s3.frames (show o.id = fid from frame_id a4.fine hf)) (by
      intro j hj hp
      obtain ⟨i, hi, rfl⟩ := List.mem_map.mp hj
      exact hids i (by simpa using hi)))
  have a6 := a5.trans ((Leads.refl a5.fine).updateDoc rfl a5.fine hdoc (d := { doc with
    characterCount := total, blockCount := (Store.splitLines (Store.replaceCr (Store.replaceCrLf text))).length }) rfl)
  cases he
  exact a1.trans (.of a6)

/-! ### Markdown and HTML -/

/-- The open frames exist, and their orders name blocks of theirs. -/
def StackOk (s : Store) (stack : List (Nat × List Int)) : Prop :=
  ∀ p ∈ stack, ∃ f, s.frames p.1 = some f ∧ ∀ j ∈ p.2, 0 < j → j.toNat ∈ f.blocks

theorem StackOk.later {s t : Store} {l : List (Nat × List Int)} (h : StackOk s l) (g : Steady s t) : StackOk t l := by
  intro p hp
  obtain ⟨f, hf, ho⟩ := h p hp
  obtain ⟨f', hf', hb⟩ := g.owned _ f hf
  exact ⟨f', hf', fun j hj hpos => hb _ (ho j hj hpos)⟩

theorem Fine.closeFrame {s t : Store} (h : Fine s) {fid : Nat} {order : List Int}
    (ho : ∃ f, s.frames fid = some f ∧ ∀ j ∈ order, 0 < j → j.toNat ∈ f.blocks)
    (hi : s.closeFrame fid order = some t) : Steady s t := by
  simp only [Store.closeFrame, Option.map_eq_some_iff] at hi
  obtain ⟨fr, hfr, he⟩ := hi
  obtain ⟨f, hf, ho⟩ := ho
  have : f = fr := Option.some.inj (hf.symm.trans hfr)
  subst this
  cases he
  exact h.steadyUpdate (o := f) (by rw [← hf]; exact congrArg s.frames (show f.id = fid from frame_id h hf)) ho

theorem Fine.closeQuotes {s t : Store} (h : Fine s) {bq : Nat} {stack stack' : List (Nat × List Int)} {d d' : Nat}
    {g g' : ListGrouper} (hs : StackOk s stack) (hg : Known s g)
    (hi : Store.closeQuotes bq stack d g s = some (stack', d', g', t)) :
    Steady s t ∧ StackOk t stack' ∧ Known t g' := by
  induction stack generalizing s d g with
  | nil => cases hi; exact ⟨.refl h, hs, hg⟩
  | cons p stack ih =>
    cases stack with
    | nil => cases hi; exact ⟨.refl h, hs, hg⟩
    | cons q rest =>
      obtain ⟨fid, order⟩ := p
      simp only [Store.closeQuotes] at hi
      split at hi
      · simp only [Option.bind_eq_some_iff] at hi
        obtain ⟨s1, h1, h2⟩ := hi
        have a := h.closeFrame (hs _ (.head _)) h1
        obtain ⟨b1, b2, b3⟩ := ih a.grows.fine
          (StackOk.later (l := q :: rest) (fun p hp => hs p (.tail _ hp)) a) (Known.nil _) h2
        exact ⟨a.trans b1, b2, b3⟩
      · cases hi; exact ⟨.refl h, hs, hg⟩

theorem StackOk.push {s : Store} {fid : Nat} {order : List Int} {rest : List (Nat × List Int)} {j : Int}
    (h : StackOk s ((fid, order) :: rest)) (hj : 0 < j → ∃ f, s.frames fid = some f ∧ j.toNat ∈ f.blocks) :
    StackOk s ((fid, order ++ [j]) :: rest) := by
  intro p hp
  rcases List.mem_cons.mp hp with rfl | hp
  · obtain ⟨f, hf, ho⟩ := h _ (.head _)
    refine ⟨f, hf, fun k hk hpos => ?_⟩
    rcases List.mem_append.mp hk with hk | hk
    · exact ho k hk hpos
    · rw [List.mem_singleton] at hk
      subst hk
      obtain ⟨f', hf', hm⟩ := hj hpos
      have : f = f' := Option.some.inj (hf.symm.trans hf')
      exact this ▸ hm
  · exact h p (.tail _ hp)

theorem Fine.openQuotes {s t : Store} (h : Fine s) {did n : Nat} {stack stack' : List (Nat × List Int)} {d d' : Nat}
    {g g' : ListGrouper} (hs : StackOk s stack) (hg : Known s g)
    (hi : Store.openQuotes did n stack d g s = some (stack', d', g', t)) :
    Steady s t ∧ StackOk t stack' ∧ Known t g' := by
  induction n generalizing s d g stack with
  | zero => cases hi; exact ⟨.refl h, hs, hg⟩
  | succ n ih =>
    cases stack with
    | nil => cases hi
    | cons p rest =>
      obtain ⟨fid, order⟩ := p
      simp only [Store.openQuotes, Option.bind_eq_some_iff] at hi
      obtain ⟨⟨q, s1⟩, h1, h2⟩ := hi
      obtain ⟨f, hf, _⟩ := hs _ (.head _)
      have m := h.createFrame rfl rfl rfl (fun p hp => by cases hp; dsimp only at hf; rw [hf]; rfl)
        (fun _ h => by cases h) h1
      have a := m.steadyFrame
      have hs1 := (hs.later a).push (j := -(q : Int)) (fun hp => by omega)
      obtain ⟨b1, b2, b3⟩ := ih a.grows.fine (stack := (q, []) :: _ :: rest) (fun p hp => by
        rcases List.mem_cons.mp hp with rfl | hp
        · exact ⟨_, m.here, fun j hj => by cases hj⟩
        · exact hs1 p hp) (Known.nil _) h2
      exact ⟨a.trans b1, b2, b3⟩

theorem Fine.putRuns {s : Store} (h : Fine s) {i : Nat} {runs : List (Run CharFormat)}
    (hb : (s.blocks i).isSome = true) : Grows s (s.putRuns i runs) := by
  unfold Store.putRuns
  by_cases hr : runs = []
  · simp only [hr, if_true]; exact h.eraseRuns i
  · simp only [hr, if_false]; exact h.setRuns hb runs

theorem Fine.addParagraph {s t : Store} (h : Fine s) {fid : Nat} {blk : Block} (h0 : blk.id = 0) (hl : blk.list = none)
    {boundary : Bool} {content : List Char × List (Run CharFormat)} {id : Nat}
    (hi : s.addParagraph fid blk boundary content = some (id, t)) :
    Steady s t ∧ (t.blocks id).isSome = true ∧ (∀ f, s.frames fid = some f → ∃ l, t.frames fid = some { f with blocks := l } ∧
      id ∈ l) := by
  simp only [Store.addParagraph, Option.map_eq_some_iff] at hi
  obtain ⟨⟨n, s1⟩, h1, he⟩ := hi
  have m := createBlock_made h1 h h0 (fun l h => by rw [hl] at h; cases h)
  have g1 := m.grows.fine.withText (ropeAppendBlock (if boundary then ropeInsertBlockBoundary s1.text else s1.text) n content.1)
  have g2 := g1.trans (g1.fine.putRuns (runs := content.2) (g1.keep .block n rfl m.here))
  cases he
  refine ⟨m.steady.trans (.same g2 rfl), g2.keep .block n rfl m.here, fun f hf => ?_⟩
  obtain ⟨l, hl', hn, _⟩ := m.owned f hf
  exact ⟨l, hl', hn⟩

theorem Fine.joinList {s t : Store} (h : Fine s) {did id : Nat} {g g' : ListGrouper} (hg : Known s g)
    {style : Option ListStyle} {indent : Nat} (hi : s.joinList did id g style indent = some (g', t)) :
    Steady s t ∧ Known t g' := by
  cases style with
  | none => cases hi; exact ⟨.refl h, .nil _⟩
  | some style =>
    obtain ⟨k1, k2⟩ := hg.tryReuse style indent
    simp only [Store.joinList] at hi
    split at hi
    · rename_i g1 lid hr
      rw [hr] at k1 k2
      simp only [Option.map_eq_some_iff] at hi
      obtain ⟨s1, h1, he⟩ := hi
      have m := h.setBlockList h1
      cases he
      exact ⟨.same m.grows (m.others .frame (by decide)), k1.later m.grows⟩
    · rename_i g1 hr
      rw [hr] at k1 k2
      simp only [Option.bind_eq_some_iff, Option.map_eq_some_iff] at hi
      obtain ⟨⟨lid, s1⟩, h1, s2, h2, he⟩ := hi
      have m1 := h.createList rfl h1
      have m := m1.grows.fine.setBlockList h2
      have hl : (s2.lists lid).isSome = true := m.grows.keep .list lid rfl (by rw [m1.here]; rfl)
      have a : Steady s s1 := .same m1.grows (m1.others .frame (by decide) (by decide) (by decide))
      have b : Steady s1 s2 := .same m.grows (m.others .frame (by decide))
      cases he
      exact ⟨a.trans b, (k1.later (m1.grows.trans m.grows)).register hl _ _⟩

/-- What holds of the variables of the import. -/
structure ImportOk (s : Store) (x : ImportSt) : Prop where
  stack : StackOk s x.stack
  known : Known s x.grouper

theorem ImportOk.push {s : Store} {x : ImportSt} (h : ImportOk s x) {j : Int}
    (hj : ∀ p rest, x.stack = p :: rest → 0 < j → ∃ f, s.frames p.1 = some f ∧ j.toNat ∈ f.blocks) :
    ImportOk s (x.push j) := by
  unfold ImportSt.push
  split
  · rename_i f order rest he
    exact ⟨(he ▸ h.stack).push (hj _ _ he), h.known⟩
  · exact h

theorem Fine.placeBlock {s t : Store} (h : Fine s) {html : Bool} {did : Nat} {last : Bool} {x y : ImportSt}
    (hx : ImportOk s x) {b : ParsedBlock} (hi : Store.placeBlock html did last x b s = some (y, t)) :
    Steady s t ∧ ImportOk t y := by
  simp only [Store.placeBlock, Option.bind_eq_some_iff, Option.map_eq_some_iff] at hi
  obtain ⟨⟨fid, order⟩, hhd, ⟨id, s1⟩, h1, ⟨g, s2⟩, h2, he⟩ := hi
  obtain ⟨a1, a2, a3⟩ := h.addParagraph rfl rfl h1
  obtain ⟨b1, b2⟩ := a1.grows.fine.joinList (hx.known.later a1.grows) h2
  have c := a1.trans b1
  cases he
  refine ⟨c, ?_⟩
  apply ImportOk.push
  · exact ⟨hx.stack.later c, b2⟩
  intro p rest hp _
  dsimp only at hp
  rw [hp] at hhd
  cases hhd
  obtain ⟨f, hf, _⟩ := hx.stack _ (by rw [hp]; exact .head _)
  obtain ⟨l, hl, hm⟩ := a3 f hf
  obtain ⟨k, hk, hk'⟩ := b1.owned _ _ hl
  exact ⟨k, hk, hk' _ (by simpa using hm)⟩

theorem Fine.importBlock {s t : Store} (h : Fine s) {html : Bool} {did : Nat} {last : Bool} {x y : ImportSt}
    (hx : ImportOk s x) {b : ParsedBlock} (hi : Store.importBlock html did last x b s = some (y, t)) :
    Steady s t ∧ ImportOk t y := by
  simp only [Store.importBlock, Option.bind_eq_some_iff] at hi
  obtain ⟨⟨st1, d1, g1, s1⟩, h1, ⟨st2, d2, g2, s2⟩, h2, h3⟩ := hi
  obtain ⟨a1, a2, a3⟩ := h.closeQuotes hx.stack hx.known h1
  obtain ⟨b1, b2, b3⟩ := a1.grows.fine.openQuotes a2 a3 h2
  obtain ⟨c1, c2⟩ := b1.grows.fine.placeBlock (x := { x with stack := st2, depth := d2, grouper := g2 }) ⟨b2, b3⟩ h3
  exact ⟨a1.trans (b1.trans c1), c2⟩

theorem Fine.importCells {s t : Store} (h : Fine s) {did tid : Nat} {total n pos pos' chars : Int}
    {l : List (Nat × Nat × List ParsedSpan)} {gs : List Nat}
    (hi : Store.importCells did tid total n pos l s = some (gs, pos', chars, t)) : Steady s t := by
  induction l generalizing s n pos gs chars with
  | nil => cases hi; exact .refl h
  | cons p l ih =>
    obtain ⟨r, c, spans⟩ := p
    simp only [Store.importCells, Option.bind_eq_some_iff, Option.map_eq_some_iff] at hi
    obtain ⟨⟨g, s1⟩, h1, created, hcr, ⟨b, s2⟩, h2, ⟨ci, s3⟩, h3, ⟨gs', p', ch', s4⟩, h4, he⟩ := hi
    have m := h.createFrame rfl rfl rfl (fun _ h => by cases h) (fun _ h => by cases h) h1
    have a := m.steadyFrame
    obtain ⟨a1, a2, a3⟩ := a.grows.fine.addParagraph rfl rfl h2
    obtain ⟨bl, hbl, hn⟩ := a3 created hcr
    have b0 := a.trans a1
    have hid : created.id = g := frame_id a.grows.fine hcr
    have u1 := b0.grows.fine.steadyUpdate (f := { created with childOrder := [(b : Int)] })
      (o := { created with blocks := bl }) (by rw [← hbl]; exact congrArg s2.frames hid) (by
        intro j hj hp
        rw [List.mem_singleton] at hj
        subst hj; simpa using hn)
    have b1 := b0.trans u1
    have m3 := b1.grows.fine.createCell (fun f hf => by
      cases hf
      obtain ⟨k, hk, _⟩ := u1.owned g _ hbl
      rw [show Store.frames _ g = _ from hk]; rfl) h3
    have b2 := b1.trans (.same m3.grows (m3.others .frame (by decide) (by decide) (by decide)))
    cases he
    exact b2.trans (ih b2.grows.fine h4)

theorem Fine.adoptCells {s : Store} (h : Fine s) {a : Nat} (ha : (s.frames a).isSome = true) (gs : List Nat) :
    Steady s (Store.adoptCells a gs s) := by
  unfold Store.adoptCells
  induction gs generalizing s with
  | nil => exact .refl h
  | cons g gs ih =>
    have h1 : Steady s (match s.frames g with
        | some fr => s.updateFrameRel { fr with parentFrame := some a }
        | none => s) := by
      split
      · rename_i f hf
        have hid := frame_id h hf
        have hr := h.tidy.refs .frame g f hf
        refine ⟨h.over (k := .frame) (by decide) (i := f.id) (o := f) (by rw [hid]; exact hf) rfl
          ⟨hr.owns, ?_, hr.orders⟩, ?_⟩
        · intro p hp
          have := hr.mentions p
          simp only [mentions, List.mem_append, List.mem_map, Option.mem_toList, Option.some.injEq] at hp this
          rcases hp with ⟨i, rfl, rfl⟩ | hp
          · exact ha
          · exact this (.inr hp)
        · intro i f' hf'
          by_cases hi : i = g
          · subst hi
            have : f = f' := Option.some.inj (hf.symm.trans hf')
            subst this
            exact ⟨{ f with parentFrame := some a }, by simp [Store.updateFrameRel, IdMap.insert, hid], fun _ h => h⟩
          · exact ⟨f', by simp only [Store.updateFrameRel, IdMap.insert]; rw [if_neg (hid ▸ hi)]; exact hf', fun _ h => h⟩
      · exact .refl h
    exact h1.trans (ih h1.grows.fine (h1.grows.keep .frame _ rfl ha))

theorem Fine.importTable {s t : Store} (h : Fine s) {html : Bool} {did : Nat} {last : Bool} {x y : ImportSt}
    (hx : ImportOk s x) {rows : List (List (List ParsedSpan))}
    (hi : Store.importTable html did last x rows s = some (y, t)) : Steady s t ∧ ImportOk t y := by
  simp only [Store.importTable] at hi
  split at hi
  · cases hi; exact ⟨.refl h, hx.stack, .nil _⟩
  simp only [Option.bind_eq_some_iff, Option.map_eq_some_iff] at hi
  obtain ⟨⟨tid, s1⟩, h1, ⟨fid, order⟩, hhd, ⟨gs, pos, chars, s2⟩, h2, ⟨a, s3⟩, h3, he⟩ := hi
  have m := h.createTable rfl h1
  have a1 : Steady s s1 := .same m.grows (m.others .frame (by decide) (by decide) (by decide))
  have a2 := a1.trans (.same (a1.grows.fine.withText (ropeAppendTableAnchor s1.text tid)) rfl)
  have a3 := a2.trans (a2.grows.fine.importCells h2)
  obtain ⟨f, hf, _⟩ := hx.stack _ (List.mem_of_mem_head? hhd)
  have m2 := a3.grows.fine.createFrame rfl rfl rfl
    (fun p hp => by
      cases hp
      exact a3.grows.keep .frame fid rfl (by rw [show s.tab .frame fid = _ from hf]; rfl))
    (fun p hp => by
      cases hp
      have b1 := a1.grows.fine.withText (ropeAppendTableAnchor s1.text tid)
      exact (b1.trans (b1.fine.importCells h2).grows).keep .table tid rfl (by rw [m.here]; rfl)) h3
  have a4 := a3.trans m2.steadyFrame
  have a5 : Steady s (if html then s3 else Store.adoptCells a gs s3) := by
    split
    · exact a4
    · exact a4.trans (a4.grows.fine.adoptCells (by rw [show s3.frames a = _ from m2.here]; rfl) gs)
  cases he
  refine ⟨a5, ?_⟩
  apply ImportOk.push
  · exact ⟨hx.stack.later a5, Known.nil _⟩
  intro p rest _ hp
  omega

theorem Fine.importLoop {s t : Store} (h : Fine s) {html : Bool} {did : Nat} {x y : ImportSt} (hx : ImportOk s x)
    {es : List ParsedElement} (hi : Store.importLoop html did x es s = some (y, t)) : Steady s t ∧ ImportOk t y := by
  induction es generalizing s x with
  | nil => cases hi; exact ⟨.refl h, hx⟩
  | cons e es ih =>
    simp only [Store.importLoop, Option.bind_eq_some_iff] at hi
    obtain ⟨⟨x1, s1⟩, h1, h2⟩ := hi
    have a : Steady s s1 ∧ ImportOk s1 x1 := by
      cases e with
      | block b => exact h.importBlock hx h1
      | table rows => exact h.importTable hx h1
    obtain ⟨b1, b2⟩ := ih a.1.grows.fine a.2 h2
    exact ⟨a.1.trans b1, b2⟩

theorem Fine.closeAll {s t : Store} (h : Fine s) {stack : List (Nat × List Int)} (hs : StackOk s stack)
    (hi : Store.closeAll stack s = some t) : Steady s t := by
  induction stack generalizing s with
  | nil => cases hi; exact .refl h
  | cons p rest ih =>
    obtain ⟨fid, order⟩ := p
    simp only [Store.closeAll, Option.bind_eq_some_iff] at hi
    obtain ⟨s1, h1, h2⟩ := hi
    have a := h.closeFrame (hs _ (.head _)) h1
    exact a.trans (ih a.grows.fine (StackOk.later (l := rest) (fun p hp => hs p (.tail _ hp)) a) h2)

theorem Fine.importElements {s t : Store} (h : Fine s) {html : Bool} {es : List ParsedElement} {n : Int}
    (hi : s.importElements html es = some (n, t)) : Leads notFrames s t := by
  simp only [Store.importElements, Option.bind_eq_some_iff, Option.map_eq_some_iff] at hi
  obtain ⟨did, _, s1, h1, ⟨fid, s2⟩, h2, ⟨x, s3⟩, h3, s4, h4, doc, hdoc, he⟩ := hi
  have a1 := h.removeFrames h1
  have m := a1.fine.createFrame rfl rfl rfl (fun _ h => by cases h) (fun _ h => by cases h) h2
  have a2 := m.grows.trans (m.grows.fine.withText ropeReset)
  obtain ⟨b1, b2⟩ := a2.fine.importLoop (x := { stack := [(fid, [])] }) ⟨fun p hp => by
    rw [List.mem_singleton] at hp
    subst hp
    exact ⟨_, m.here, fun j hj => by cases hj⟩, .nil _⟩ h3
  have c1 := b1.trans (b1.grows.fine.closeAll b2.stack h4)
  have c2 := a2.trans c1.grows
  have c3 := c2.trans ((Leads.refl c2.fine).updateDoc rfl c2.fine hdoc (d := { doc with
    characterCount := x.chars, blockCount := x.count }) rfl)
  cases he
  exact a1.trans (.of c3)

end Verif

import Verif.Lemmas.PasteState
import Verif.Lemmas.FlatBlock
import Verif.Lemmas.Copy
import Verif.Lemmas.ListCommands
import Verif.Lemmas.ListSharing
/- Pasting paragraphs into a document of one frame. -/
namespace Verif
variable {s : Store} {d : Document} {f : Nat} {ps L R : List SPara} {p : SPara} {st : RopeSt} {fr : Frame}
open Store

/-- The store while paragraphs are being added: with the text `st` it will get, it shows `ps`; the order of
the frame is not yet brought up to date. -/
structure Adding (s : Store) (st : RopeSt) (d : Document) (f : Nat) (fr : Frame) (ps : List SPara) : Prop where
  shows_ : Shows (s.withText st) d ps
  frames : d.frames = [f]
  tables : d.tables = []
  frame : ∃ bs, s.frames f = some { fr with blocks := bs } ∧ bs.Perm (ps.map SPara.id)
  frid : fr.id = f
  others : ∀ g fr, s.frames g = some fr → g ≠ f → ∀ b ∈ fr.blocks, b ∉ ps.map SPara.id ∧ b < s.next "block"
  positive : ∀ p ∈ ps, 0 < p.id
  plain : fr.table = none ∧ fr.fmtIsBlockquote = none

theorem Flat.adding (h : Flat s d f ps) (hf : s.frames f = some fr) : Adding s s.text d f fr ps := by
  obtain ⟨fr', h1, h2, h3, h4⟩ := h.frame
  have : fr' = fr := by rw [hf] at h1; exact (Option.some.inj h1).symm
  subst this
  exact ⟨h.toShows, h.frames, h.tables, ⟨_, h1, h4⟩, h2, h.others, h.positive, h.plain _ h1⟩

theorem insertAtIndex_perm (l : List Nat) (i : Int) (x : Nat) : (insertAtIndex l i x).Perm (l ++ [x]) := by
  unfold insertAtIndex
  split
  · rename_i h
    exact ((List.perm_insertIdx x l (by omega))).trans (List.perm_append_singleton x l).symm
  · exact .refl _

theorem createBlock_at {blk : Block} (hf : s.frames f = some fr) (h0 : blk.id = 0) (index : Int)
    (hall : ∀ i ∈ fr.blocks, (s.blocks i).isSome) :
    s.createBlock blk f index = some (s.next "block", { s with
      counters := (s.nextId "block").2.counters
      blocks := s.blocks.insert (s.next "block") { blk with id := s.next "block" }
      frames := s.frames.insert f { fr with blocks := insertAtIndex fr.blocks index (s.next "block") } }) := by
  unfold Store.createBlock Store.insertNewBlock
  rw [if_pos h0]
  simp only [Option.bind_some]
  have hfr : Store.frameBlocks { (s.nextId "block").2 with
      blocks := (s.nextId "block").2.blocks.insert (s.nextId "block").1
        { blk with id := (s.nextId "block").1 } } f = fr.blocks := by
    simp [Store.frameBlocks, Store.nextId, hf]
  rw [hfr]
  unfold Store.setFrameBlocks
  rw [if_pos]
  · simp only [Store.nextId, hf, Option.map_some]
    rfl
  · rw [List.all_eq_true]
    intro i hi
    rw [(insertAtIndex_perm _ _ _).mem_iff] at hi
    simp only [Store.nextId, IdMap.insert_get]
    split
    · rfl
    · rcases List.mem_append.mp hi with hi | hi
      · exact hall i hi
      · rename_i hne
        simp only [List.mem_singleton] at hi
        exact absurd hi hne

/-- One more paragraph. -/
theorem Adding.add (h : Adding s st d f fr (L ++ p :: R)) {blk : Block} (h0 : blk.id = 0) (index : Int)
    {runs : List (Run CharFormat)} {cs : List SChar} (hst : StyledOk runs cs) (shape : Block)
    (hshape : ∀ n, IsBlock ⟨n, cs, shape⟩ { blk with id := n }) :
    ∃ s1 st1 st2, s.createBlock blk f index = some (s.next "block", s1) ∧
      ropeSplitBlock st p.id (utf8Len p.text) (s.next "block") = some st1 ∧
      (if cs.map Prod.fst = [] then some st1 else ropeInsertInBlock st1 (s.next "block") 0 (cs.map Prod.fst)) = some st2 ∧
      Adding (s1.writeState (s.next "block") runs []) st2 d f fr
        (L ++ p :: ⟨s.next "block", cs, shape⟩ :: R) ∧
      (∀ i, (s1.writeState (s.next "block") runs []).blocks i =
        if i = s.next "block" then some { blk with id := s.next "block" } else s.blocks i) ∧
      (s1.writeState (s.next "block") runs []).lists = s.lists ∧
      (s1.writeState (s.next "block") runs []).documents = s.documents ∧
      (s1.writeState (s.next "block") runs []).text = s.text ∧
      (s1.writeState (s.next "block") runs []).next "list" = s.next "list" ∧
      (s1.writeState (s.next "block") runs []).next "block" = s.next "block" + 1 := by
  obtain ⟨bs, hf, hperm⟩ := h.frame
  have hsh := h.shows_
  have hnx : (s.withText st).next "block" = s.next "block" := rfl
  have hbl : (s.withText st).blocks = s.blocks := rfl
  have hfresh := hsh.fresh
  rw [hnx] at hfresh
  have hcr := createBlock_at (blk := blk) hf h0 index (by
    intro i hi
    obtain ⟨q, hq, rfl⟩ := List.mem_map.mp (hperm.mem_iff.mp hi)
    obtain ⟨b, hb, _⟩ := hsh.block q hq
    rw [← hbl, hb]; rfl)
  generalize hn : s.next "block" = n at *
  have hnew : ∀ q ∈ L ++ p :: R, q.id ≠ n := fun q hq => by have := hfresh q hq; omega
  have hnotin : n ∉ (L ++ p :: R).map SPara.id := by
    intro hm
    obtain ⟨q, hq, e⟩ := List.mem_map.mp hm
    exact hnew q hq e
  -- the rope
  have ht : Repr st (paras (L ++ p :: R)) := hsh.text
  rw [paras_append, paras_cons] at ht
  have ht' : Repr st (paras L ++ (.block p.id, p.text ++ []) :: paras R) := by simpa using ht
  obtain ⟨st1, hr1, hrep1⟩ := splitBlock_repr (new := n) ht' (by
    simp only [List.append_nil]
    rw [← paras_cons, ← paras_append, paras_fst]
    intro hm
    obtain ⟨q, hq, e⟩ := List.mem_map.mp hm
    exact hnew q hq (by simpa using e))
  have hins : ∃ st2, (if cs.map Prod.fst = [] then some st1 else ropeInsertInBlock st1 n 0 (cs.map Prod.fst)) = some st2 ∧
      Repr st2 (paras L ++ (.block p.id, p.text) :: (.block n, cs.map Prod.fst) :: paras R) := by
    by_cases hc : cs.map Prod.fst = []
    · rw [if_pos hc]
      exact ⟨st1, rfl, by rw [hc]; exact hrep1⟩
    · rw [if_neg hc]
      have hrep1' : Repr st1 ((paras L ++ [(.block p.id, p.text)]) ++ (.block n, [] ++ []) :: paras R) := by
        simpa using hrep1
      obtain ⟨st2, h1, h2⟩ := insertInBlock_repr (cs.map Prod.fst) hrep1'
      exact ⟨st2, h1, by simpa using h2⟩
  obtain ⟨st2, hr2, hrep2⟩ := hins
  refine ⟨_, st1, st2, hcr, hr1, hr2, ?_⟩
  generalize hs2 : Store.writeState ({ s with
      counters := (s.nextId "block").2.counters
      blocks := s.blocks.insert n { blk with id := n }
      frames := s.frames.insert f { { fr with blocks := bs } with blocks := insertAtIndex bs index n } } : Store) n
      runs [] = s2
  have h2f : ∀ g, s2.frames g = if g = f then some { fr with blocks := insertAtIndex bs index n } else s.frames g := by
    intro g; subst hs2; simp [Store.writeState]
  have h2b : ∀ i, s2.blocks i = if i = n then some { blk with id := n } else s.blocks i := by
    intro i; subst hs2; simp [Store.writeState]
  have h2k : s2.blocks.keys = s.blocks.keys ++ [n] := by
    have : s.blocks n = none := hsh.absent n hnotin
    subst hs2
    simp [Store.writeState, IdMap.insert, this]
  have h2r : ∀ i, (s2.formatRuns i).getD [] = if i = n then runs else (s.formatRuns i).getD [] := by
    intro i; subst hs2
    simp only [Store.writeState]
    by_cases hr : runs = []
    · rw [if_pos hr, hr]
      simp only [IdMap.erase_get]
      split <;> rfl
    · rw [if_neg hr]
      simp only [IdMap.insert_get]
      split <;> rfl
  have h2i : ∀ i, (s2.blockImages i).getD [] = if i = n then [] else (s.blockImages i).getD [] := by
    intro i; subst hs2
    simp only [Store.writeState, if_true]
    simp only [IdMap.erase_get]
    split <;> rfl
  have h2n : s2.next "block" = n + 1 := by
    subst hs2
    simp [Store.next, Store.writeState, Store.nextId] at hn ⊢
    omega
  have h2l : s2.next "list" = s.next "list" := by
    subst hs2
    simp [Store.next, Store.writeState, Store.nextId]
  have hids : ((L ++ p :: ⟨n, cs, shape⟩ :: R).map SPara.id).Perm
      ((L ++ p :: R).map SPara.id ++ [n]) := by
    simp only [List.map_append, List.map_cons, List.append_assoc, List.cons_append]
    exact List.Perm.append_left _ (List.Perm.cons _ (List.perm_append_singleton n (R.map SPara.id)).symm)
  have hmemid : ∀ i, i ∈ (L ++ p :: ⟨n, cs, shape⟩ :: R).map SPara.id ↔
      i ∈ (L ++ p :: R).map SPara.id ∨ i = n := by
    intro i; rw [hids.mem_iff, List.mem_append, List.mem_singleton]
  have hmem : ∀ q ∈ L ++ p :: ⟨n, cs, shape⟩ :: R,
      q = ⟨n, cs, shape⟩ ∨ (q.id ≠ n ∧ q ∈ L ++ p :: R) := by
    intro q hq
    simp only [List.mem_append, List.mem_cons] at hq
    rcases hq with hq | rfl | rfl | hq
    · exact .inr ⟨hnew q (by simp [hq]), by simp [hq]⟩
    · exact .inr ⟨hnew q (by simp), by simp⟩
    · exact .inl rfl
    · exact .inr ⟨hnew q (by simp [hq]), by simp [hq]⟩
  refine ⟨?_, h2b, by subst hs2; rfl, by subst hs2; rfl, by subst hs2; rfl, h2l, h2n⟩
  constructor
  · constructor
    · have := hsh.root; subst hs2; exact this
    · have := hsh.document; subst hs2; exact this
    · show Repr st2 _
      rw [paras_append, paras_cons, paras_cons]
      exact hrep2
    · show s2.blocks.keys.Perm _
      rw [h2k]
      exact (hsh.keys.append_right [n]).trans hids.symm
    · intro q hq
      show ∃ b, s2.blocks q.id = some b ∧ _
      rcases hmem q hq with rfl | ⟨hne, hq⟩
      · exact ⟨_, (h2b n).trans (if_pos rfl), hshape n⟩
      · rw [h2b, if_neg hne]; exact hsh.block q hq
    · intro i hi
      show s2.blocks i = none
      rw [hmemid, not_or] at hi
      rw [h2b, if_neg hi.2]; exact hsh.absent i hi.1
    · intro q hq
      show StyledOk ((s2.formatRuns q.id).getD []) q.chars
      rw [h2r]
      rcases hmem q hq with rfl | ⟨hne, hq⟩
      · rw [if_pos rfl]; exact hst
      · rw [if_neg hne]; exact hsh.formats q hq
    · intro q hq
      show (s2.blockImages q.id).getD [] = []
      rw [h2i]
      rcases hmem q hq with rfl | ⟨hne, hq⟩
      · rw [if_pos rfl]
      · rw [if_neg hne]; exact hsh.images q hq
    · intro q hq
      show q.id < s2.next "block"
      rw [h2n]
      rcases hmem q hq with rfl | ⟨hne, hq⟩
      · simp
      · have := hfresh q hq; omega
  · exact h.frames
  · exact h.tables
  · refine ⟨_, (h2f f).trans (if_pos rfl), ?_⟩
    exact (insertAtIndex_perm _ _ _).trans ((hperm.append_right [n]).trans hids.symm)
  · exact h.frid
  · intro g gr hg hgf b hb
    rw [h2f, if_neg hgf] at hg
    have := h.others g gr hg hgf b hb
    rw [hmemid, h2n]
    exact ⟨fun hm => hm.elim this.1 (by omega), by omega⟩
  · intro q hq
    rcases hmem q hq with rfl | ⟨hne, hq⟩
    · have h1 := h.positive p (by simp)
      have h2 := hfresh p (by simp)
      show 0 < n
      omega
    · exact h.positive q hq
  · exact h.plain

/-! ### Lists -/

/-- The lists the grouper remembers. -/
def GrouperOk (s : Store) (g : ListGrouper) : Prop :=
  ∀ k i sty, g[k]? = some (some (i, sty)) → ∃ e, s.lists i = some e ∧ e.style = sty ∧ toU32 e.indent = k

theorem GrouperOk.nil (s : Store) : GrouperOk s [] := by intro k i sty h; simp at h

theorem GrouperOk.take {g : ListGrouper} (h : GrouperOk s g) (n : Nat) : GrouperOk s (g.take n) := by
  intro k i sty hk
  rw [List.getElem?_take] at hk
  split at hk
  · exact h k i sty hk
  · simp at hk

theorem GrouperOk.register {g : ListGrouper} (h : GrouperOk s g) {i : Nat} {e : TList} (he : s.lists i = some e) :
    GrouperOk s (g.register i e.style (toU32 e.indent)) := by
  intro k j sty hk
  unfold ListGrouper.register at hk
  rw [List.getElem?_set] at hk
  split at hk
  · rename_i hkk
    split at hk
    · simp only [Option.some.injEq, Prod.mk.injEq] at hk
      obtain ⟨rfl, rfl⟩ := hk
      exact ⟨e, he, rfl, hkk⟩
    · simp at hk
  · rw [List.getElem?_append] at hk
    split at hk
    · exact h k j sty hk
    · rw [List.getElem?_replicate] at hk
      split at hk <;> simp at hk

theorem GrouperOk.mono {s' : Store} {g : ListGrouper} (h : GrouperOk s g)
    (hl : ∀ i e, s.lists i = some e → s'.lists i = some e) : GrouperOk s' g := by
  intro k i sty hk
  obtain ⟨e, h1, h2, h3⟩ := h k i sty hk
  exact ⟨e, hl i e h1, h2, h3⟩

theorem ListLike.mono {s' : Store} {fl : Option FragList} {l : Option Nat} (h : ListLike s fl l)
    (hl : ∀ i e, s.lists i = some e → s'.lists i = some e) : ListLike s' fl l := by
  cases fl with
  | none => exact h
  | some fl =>
    obtain ⟨i, e, h1, h2, h3⟩ := h
    exact ⟨i, e, h1, hl i e h2, h3⟩

/-- Another table of lists. -/
theorem Adding.withLists {s' : Store} (h : Adding s st d f fr ps) (ls : List Nat) (hro : s'.roots = s.roots)
    (hd : s'.documents d.id = some { d with lists := ls }) (hf : s'.frames = s.frames) (hb : s'.blocks = s.blocks)
    (hfr : s'.formatRuns = s.formatRuns) (him : s'.blockImages = s.blockImages)
    (hn : s'.next "block" = s.next "block") : Adding s' st { d with lists := ls } f fr ps := by
  have hs := h.shows_
  refine ⟨⟨?_, hd, hs.text, ?_, ?_, ?_, ?_, ?_, ?_⟩, h.frames, h.tables, ?_, h.frid, ?_, h.positive, h.plain⟩
  · show ∃ r r', s'.roots 1 = some r ∧ s'.roots r.id = some r' ∧ _
    rw [hro]; exact hs.root
  · show s'.blocks.keys.Perm _; rw [hb]; exact hs.keys
  · show ∀ p ∈ ps, ∃ b, s'.blocks p.id = some b ∧ _; rw [hb]; exact hs.block
  · show ∀ i, _ → s'.blocks i = none; rw [hb]; exact hs.absent
  · show ∀ p ∈ ps, StyledOk ((s'.formatRuns p.id).getD []) p.chars; rw [hfr]; exact hs.formats
  · show ∀ p ∈ ps, (s'.blockImages p.id).getD [] = []; rw [him]; exact hs.images
  · show ∀ p ∈ ps, p.id < s'.next "block"; rw [hn]; exact hs.fresh
  · rw [hf]; exact h.frame
  · rw [hf, hn]; exact h.others

/-- A list is created. -/
theorem Adding.createListEntity (h : Adding s st d f fr ps) (hl : ListsOk s d ps) (l : TList) (h0 : l.id = 0) :
    ∃ s', s.createListEntity l d.id (-1) = some (s.next "list", s') ∧
      Adding s' st { d with lists := d.lists ++ [s.next "list"] } f fr ps ∧
      ListsOk s' { d with lists := d.lists ++ [s.next "list"] } ps ∧
      s'.blocks = s.blocks ∧ s'.text = s.text ∧ s'.next "block" = s.next "block" ∧
      (∀ i, s'.lists i = if i = s.next "list" then some { l with id := s.next "list" } else s.lists i) := by
  have hn : (s.counters "list").getD 1 = s.next "list" := rfl
  have hdoc : s.documents d.id = some d := h.shows_.document
  unfold Store.createListEntity Store.insertNewList
  simp only [h0, if_true, Option.bind_some, Store.nextId, hn]
  unfold Store.setDocLists Store.docLists
  simp only [hdoc, Option.map_some, Option.getD_some]
  have hi : insertAtIndex d.lists (-1) (s.next "list") = d.lists ++ [s.next "list"] := by
    unfold insertAtIndex; rw [if_neg (by omega)]
  have hfre : s.lists (s.next "list") = none := by
    cases hx : s.lists (s.next "list") with
    | none => rfl
    | some e => exact absurd (hl.fresh (s.next "list") (by rw [hx]; rfl)) (by omega)
  rw [hi, if_pos (by
    rw [List.all_eq_true]
    intro i hi
    simp only [IdMap.insert_get]
    split
    · rfl
    · rcases List.mem_append.mp hi with h1 | h1
      · obtain ⟨e, h2, _⟩ := hl.known i h1
        rw [h2]; rfl
      · rename_i hne; exact absurd (List.mem_singleton.mp h1) hne)]
  refine ⟨_, rfl, ?_, ?_, rfl, rfl, ?_, fun i => ?_⟩
  · refine h.withLists (d.lists ++ [s.next "list"]) ?_ ?_ ?_ ?_ ?_ ?_ ?_
    · rfl
    · simp
    · rfl
    · rfl
    · rfl
    · rfl
    · simp [Store.next]
  · constructor
    · intro k hk
      simp only [IdMap.insert_get]
      by_cases hkn : k = s.next "list"
      · exact ⟨_, if_pos hkn, hkn.symm⟩
      · rcases List.mem_append.mp hk with h1 | h1
        · obtain ⟨e, h2, h3⟩ := hl.known k h1
          exact ⟨e, by rw [if_neg hkn]; exact h2, h3⟩
        · exact absurd (List.mem_singleton.mp h1) hkn
    · intro k hk
      simp only [IdMap.insert_get] at hk
      simp only [List.mem_append, List.mem_singleton]
      by_cases hkn : k = s.next "list"
      · exact .inr hkn
      · rw [if_neg hkn] at hk; exact .inl (hl.only k hk)
    · intro p hp k hk
      exact List.mem_append_left _ (hl.items p hp k hk)
    · rw [List.nodup_append]
      refine ⟨hl.nodup, by simp, ?_⟩
      intro a ha b hb
      rw [List.mem_singleton] at hb
      obtain ⟨e, h2, _⟩ := hl.known a ha
      have := hl.fresh a (by rw [h2]; rfl)
      omega
    · intro k hk
      simp only [IdMap.insert_get] at hk
      have hgoal : k < s.next "list" + 1 := by
        by_cases hkn : k = s.next "list"
        · omega
        · rw [if_neg hkn] at hk
          have := hl.fresh k hk
          omega
      simp only [Store.next, if_true, Option.getD_some]
      exact hgoal
  · simp [Store.next]
  · simp

/-- The list a pasted paragraph joins. -/
theorem Adding.chooseList (h : Adding s st d f fr ps) (hl : ListsOk s d ps) {g : ListGrouper} (hg : GrouperOk s g)
    (fl : Option FragList) :
    ∃ s' g' l ls, s.chooseList d.id g fl = some (s', g', l) ∧ Adding s' st { d with lists := ls } f fr ps ∧
      ListsOk s' { d with lists := ls } ps ∧ GrouperOk s' g' ∧ ListLike s' fl l ∧ (∀ i, l = some i → i ∈ ls) ∧
      s'.blocks = s.blocks ∧ s'.text = s.text ∧ s'.next "block" = s.next "block" ∧
      (∀ i e, s.lists i = some e → s'.lists i = some e) := by
  cases fl with
  | none =>
    exact ⟨s, [], none, d.lists, rfl, h, hl, .nil s, rfl, by simp, rfl, rfl, rfl, fun _ _ h => h⟩
  | some fl =>
    unfold Store.chooseList
    have hg1 : GrouperOk s (g.tryReuse fl.style (toU32 fl.indent)).1 := by
      have : (g.tryReuse fl.style (toU32 fl.indent)).1 = g.take (toU32 fl.indent + 1) := by
        unfold ListGrouper.tryReuse
        simp only []
        split
        · split <;> rfl
        · rfl
      rw [this]; exact hg.take _
    have hfound : ∀ i, (g.tryReuse fl.style (toU32 fl.indent)).2 = some i →
        ∃ e, s.lists i = some e ∧ e.style = fl.style ∧ toU32 e.indent = toU32 fl.indent := by
      intro i hi
      unfold ListGrouper.tryReuse at hi
      simp only [] at hi
      split at hi
      · rename_i id sty hk
        split at hi
        · rename_i hsty
          simp only [Option.some.injEq] at hi
          subst hi
          obtain ⟨e, h1, h2, h3⟩ := (hg.take (toU32 fl.indent + 1)) _ _ _ hk
          exact ⟨e, h1, h2.trans hsty, h3⟩
        · simp at hi
      · simp at hi
    cases hf : (g.tryReuse fl.style (toU32 fl.indent)).2 with
    | some i =>
      obtain ⟨e, h1, h2, h3⟩ := hfound i hf
      refine ⟨s, _, some i, d.lists, by simp only [hf], h, hl, hg1, ⟨i, e, rfl, h1, h2, h3⟩, ?_, rfl, rfl, rfl, fun _ _ h => h⟩
      intro j hj
      cases hj
      exact hl.only i (by rw [h1]; rfl)
    | none =>
      obtain ⟨s', e1, e2, e3, e4, e5, e6, e7⟩ := h.createListEntity hl fl.toEntity rfl
      have hmono : ∀ i e, s.lists i = some e → s'.lists i = some e := by
        intro i e hi
        have := hl.fresh i (by rw [hi]; rfl)
        rw [e7, if_neg (by omega)]; exact hi
      have hnew : s'.lists (s.next "list") = some { fl.toEntity with id := s.next "list" } := by rw [e7, if_pos rfl]
      refine ⟨s', _, some (s.next "list"), d.lists ++ [s.next "list"], by simp only [hf, e1]; rfl, e2, e3, ?_,
        ⟨_, _, rfl, hnew, rfl, rfl⟩, by simp, e4, e5, e6, hmono⟩
      exact (hg1.mono hmono).register hnew

/-- The list chosen follows the rule. -/
theorem Adding.chooseRule (h : Adding s st d f fr ps) (hl : ListsOk s d ps) {g g' : ListGrouper} {past : Imported}
    (hk : GrouperKnows g past) {x : Option FragList} {l : Option Nat} {s' : Store}
    (he : s.chooseList d.id g x = some (s', g', l)) :
    ListRule d.lists past x l ∧ GrouperKnows g' (listSeen x l :: past) := by
  cases x with
  | none =>
    cases he
    exact ⟨rfl, fun _ => rfl⟩
  | some x =>
    have hn : s.next "list" ∉ d.lists := by
      intro hn
      obtain ⟨e, h1, _⟩ := hl.known _ hn
      have := hl.fresh (s.next "list") (by rw [h1]; rfl)
      omega
    obtain ⟨k1, k2⟩ := step_eq hk x (s.next "list")
    unfold Store.chooseList at he
    dsimp only at he
    cases hr : (g.tryReuse x.style (toU32 x.indent)).2 with
    | some id =>
      rw [hr] at he k1 k2
      cases he
      dsimp only at k1 k2
      subst k1
      exact ⟨⟨s.next "list", hn, rfl⟩, k2⟩
    | none =>
      rw [hr] at he k1 k2
      obtain ⟨t, e1, _⟩ := h.createListEntity hl x.toEntity rfl
      rw [e1, Option.map_some] at he
      cases he
      dsimp only at k1 k2
      rw [← k1] at k2
      exact ⟨⟨s.next "list", hn, congrArg some k1⟩, k2⟩

/-- The list of the only paragraph. -/
theorem Adding.newList (h : Adding s st d f fr ps) (hl : ListsOk s d ps) (fl : Option FragList) :
    ∃ s' l ls, s.newList d.id fl = some (s', l) ∧ Adding s' st { d with lists := ls } f fr ps ∧
      ListsOk s' { d with lists := ls } ps ∧ ListLike s' fl l ∧ (∀ i, l = some i → i ∈ ls) ∧
      s'.blocks = s.blocks ∧ s'.text = s.text ∧ s'.next "block" = s.next "block" ∧
      (∀ i e, s.lists i = some e → s'.lists i = some e) := by
  cases fl with
  | none =>
    exact ⟨s, none, d.lists, rfl, h, hl, rfl, by simp, rfl, rfl, rfl, fun _ _ h => h⟩
  | some fl =>
    obtain ⟨s', e1, e2, e3, e4, e5, e6, e7⟩ := h.createListEntity hl fl.toEntity rfl
    refine ⟨s', some (s.next "list"), d.lists ++ [s.next "list"], by unfold Store.newList; simp only [e1]; rfl, e2, e3,
      ⟨_, _, rfl, by rw [e7, if_pos rfl], rfl, rfl⟩, by simp, e4, e5, e6, ?_⟩
    intro i e hi
    have := hl.fresh i (by rw [hi]; rfl)
    rw [e7, if_neg (by omega)]; exact hi

/-! ### The paragraphs of a fragment -/

theorem PastedAs.mono {s' : Store} {fbs : List FragBlock} {qs : List SPara} (h : PastedAs s fbs qs)
    (hl : ∀ i e, s.lists i = some e → s'.lists i = some e) : PastedAs s' fbs qs := by
  induction fbs generalizing qs with
  | nil => cases qs with
    | nil => trivial
    | cons q qs => exact h.elim
  | cons fb fbs ih => cases qs with
    | nil => exact h.elim
    | cons q qs => exact ⟨⟨h.1.chars, h.1.format, h.1.list.mono hl⟩, ih h.2⟩

theorem ListsOk.addPara {q : SPara} (h : ListsOk s d (L ++ p :: R)) {s' : Store} (hl : s'.lists = s.lists)
    (hn : s'.next "list" = s.next "list") (hq : ∀ i, q.shape.list = some i → i ∈ d.lists) :
    ListsOk s' d (L ++ p :: q :: R) := by
  refine ⟨?_, ?_, ?_, h.nodup, ?_⟩
  · rw [hl]; exact h.known
  · rw [hl]; exact h.only
  · intro x hx
    simp only [List.mem_append, List.mem_cons] at hx
    rcases hx with hx | rfl | rfl | hx
    · exact h.items x (by simp [hx])
    · exact h.items x (by simp)
    · exact hq
    · exact h.items x (by simp [hx])
  · rw [hl, hn]; exact h.fresh

theorem Adding.addAll (fbs : List FragBlock) (hfb : ∀ fb ∈ fbs, fb.IsText) :
    ∀ {s : Store} {st : RopeSt} {d : Document} {g : ListGrouper} {past : Imported} {L : List SPara} {p : SPara} (index : Nat) (running : Int),
    Adding s st d f fr (L ++ p :: R) → ListsOk s d (L ++ p :: R) → GrouperOk s g → GrouperKnows g past →
    ∃ s' ls qs st', addFragBlocks d.id f fbs index running g s =
        some (s', qs.map (fun q => (q.id, q.text)), running + charsBefore (paras qs)) ∧
      (∀ rest, ropeAddBlocks (qs.map (fun q => (q.id, q.text)) ++ rest) p.id (utf8Len p.text) st =
        ropeAddBlocks rest (qs.getLastD p).id (utf8Len (qs.getLastD p).text) st') ∧
      Adding s' st' { d with lists := ls } f fr (L ++ p :: (qs ++ R)) ∧
      ListsOk s' { d with lists := ls } (L ++ p :: (qs ++ R)) ∧ PastedAs s' fbs qs ∧
      (∀ A q B, qs = A ++ q :: B → ∃ b, s'.blocks q.id = some b ∧ b.documentPosition = running + charsBefore (paras A)) ∧
      (∀ i, i < s.next "block" → s'.blocks i = s.blocks i) ∧ s.next "block" ≤ s'.next "block" ∧
      (∀ q ∈ qs, s.next "block" ≤ q.id) ∧ s'.text = s.text ∧ (∀ i e, s.lists i = some e → s'.lists i = some e) ∧
      ListsJoined d.lists past (fbs.map fun fb => fb.list) (qs.map fun q => q.shape.list) := by
  induction fbs with
  | nil =>
    intro s st d g past L p index running h hl hg hk
    refine ⟨s, d.lists, [], st, ?_, fun rest => rfl, h, hl, trivial, ?_, fun _ _ => rfl, Nat.le_refl _, by simp, rfl,
      fun _ _ h => h, trivial⟩
    · simp [addFragBlocks]
    · intro A q B e; simp at e
  | cons fb fbs ih =>
    intro s st d g past L p index running h hl hg hk
    have hfb0 := hfb fb (by simp)
    obtain ⟨s1, g1, l, ls, e1, a1, l1, gr1, like1, in1, b1, t1, n1, m1⟩ := h.chooseList hl hg fb.list
    obtain ⟨rule1, k1⟩ := h.chooseRule hl hk e1
    have hst := (fragState_styled hfb0).1
    obtain ⟨s2, st1, st2, c1, c2, c3, c4, c5, c6, c7, c8, c9, c10⟩ :=
      a1.add (blk := { fb.format with id := 0, list := l, documentPosition := running }) rfl (index : Int) hst
        { fb.format with id := 0, list := l, documentPosition := 0 } (fun _ => rfl)
    rw [n1] at c1 c2 c3 c4 c5 c6 c7 c8 c9 c10
    generalize hn : s.next "block" = n at *
    generalize hs3 : s2.writeState n (fragState fb).1 [] = s3 at *
    generalize hq : (⟨n, fb.chars, { fb.format with id := 0, list := l, documentPosition := 0 }⟩ : SPara) = q at *
    have hqid : q.id = n := by subst hq; rfl
    have hqt : q.text = fb.text := by subst hq; exact hfb0.text.symm
    have hql : q.shape.list = l := by subst hq; rfl
    have hqc : q.chars = fb.chars := by subst hq; rfl
    have hl3 : ListsOk s3 { d with lists := ls } (L ++ p :: q :: R) := l1.addPara c6 c9 (by rw [hql]; exact in1)
    have hg3 : GrouperOk s3 g1 := gr1.mono (by rw [c6]; exact fun _ _ h => h)
    have e : L ++ p :: q :: R = (L ++ [p]) ++ q :: R := by simp
    rw [e] at c4 hl3
    obtain ⟨s', ls', qs, st', i1, i2, i3, i4, i5, i6, i7, i8, i9, i10, i11, i12⟩ :=
      ih (fun x hx => hfb x (by simp [hx])) (index + 1) (running + (fb.state.len + 1 : Nat)) c4 hl3 hg3 k1
    have hlen : fb.state.len = q.chars.length := by rw [state_len hfb0, hqc]
    have hm1 : ∀ i e, s1.lists i = some e → s'.lists i = some e := by
      intro i e hi; apply i11; rw [c6]; exact hi
    refine ⟨s', ls', q :: qs, st', ?_, ?_, ?_, ?_, ⟨⟨hqc, ?_, ?_⟩, i5⟩, ?_, ?_, ?_, ?_, ?_, ?_, ?_⟩
    · unfold addFragBlocks
      rw [e1, Option.bind_some]
      dsimp only
      rw [c1, Option.bind_some]
      dsimp only
      rw [(fragState_styled hfb0).2, hs3]
      have i1' : addFragBlocks d.id f fbs (index + 1) (running + (fb.state.len + 1 : Nat)) g1 s3 = _ := i1
      rw [i1', Option.map_some]
      dsimp only
      rw [List.map_cons, hqid, hqt, hlen, charsBefore_paras_cons]
      congr 3
      push_cast; omega
    · intro rest
      rw [List.map_cons, List.cons_append, ropeAddBlocks, hqid, c2, Option.bind_some, hqt]
      have c3' : (if fb.text = [] then some st1 else ropeInsertInBlock st1 n 0 fb.text) = some st2 := by
        rw [hfb0.text]; exact c3
      rw [c3', Option.bind_some]
      have := i2 rest
      rw [hqid, hqt] at this
      rw [this, List.getLastD_cons]
    · have := i3; simpa using this
    · have := i4; simpa using this
    · subst hq; rfl
    · rw [hql]; exact like1.mono hm1
    · intro A x B eq
      cases A with
      | nil =>
        simp only [List.nil_append, List.cons.injEq] at eq
        obtain ⟨rfl, _⟩ := eq
        have hb := i7 q.id (by rw [c10, hqid]; omega)
        rw [c5, if_pos hqid] at hb
        exact ⟨_, hb, by rw [charsBefore_paras_nil]; simp⟩
      | cons y A =>
        simp only [List.cons_append, List.cons.injEq] at eq
        obtain ⟨rfl, eq⟩ := eq
        obtain ⟨b, hb1, hb2⟩ := i6 A x B eq
        refine ⟨b, hb1, ?_⟩
        rw [hb2, charsBefore_paras_cons, hlen]
        push_cast; omega
    · intro i hi
      rw [i7 i (by rw [c10]; omega), c5, if_neg (by omega), b1]
    · omega
    · intro x hx
      rcases List.mem_cons.mp hx with rfl | hx
      · omega
      · have := i9 x hx; omega
    · rw [i10, c8, t1]
    · intro i e hi
      exact hm1 i e (m1 i e hi)
    · rw [List.map_cons, List.map_cons, hql]
      refine ⟨rule1, ?_⟩
      refine i12.fewer fun i hi => ?_
      rcases List.mem_append.mp hi with hi | hi
      · exact in1 i (by simpa using hi)
      · obtain ⟨e, h1, _⟩ := hl.known i hi
        exact l1.only i (by rw [m1 i e h1]; rfl)

end Verif

import Verif.Spec.Reading
import Verif.Props.ListCommands
import Verif.Props.Fragments
import Verif.Lemmas.Moves
/- What block handles, the flow and snapshots show of a document that can be read. -/
namespace Verif
variable {s s' : Store} {d : Document} {f g : Nat} {ps : List SPara} {p : SPara} {c : Option (Nat × Int × Int)}
open Store

/-- The store has the paragraphs `ps`, in order, and no others. -/
structure Visible (s : Store) (ps : List SPara) : Prop extends Reads s ps where
  ids_nodup : (ps.map SPara.id).Nodup
  keys : s.blocks.keys.Perm (ps.map SPara.id)
  refresh : ∀ {n : Nat} {p : SPara} {b : Block}, ps[n]? = some p → s.blocks p.id = some b →
    s.refreshBlock b = p.entity (paraStart ps n : Int)
  main : s.collectFrameIds (s.frames.len + 1) s.mainFrame = some (ps.map SPara.id)

theorem Visible.stored (h : Visible s ps) (hp : p ∈ ps) : s.blocks p.id = some (p.entity (s.storedPos p)) := by
  obtain ⟨b, h1, h2⟩ := h.block p hp
  unfold Store.storedPos
  rw [h1]
  exact congrArg some h2

theorem Visible.absent (h : Visible s ps) {i : Nat} (hn : i ∉ ps.map SPara.id) : s.blocks i = none := by
  cases e : s.blocks i with
  | none => rfl
  | some b => exact absurd (h.keys.mem_iff.mp ((s.blocks.mem i).mpr (by rw [e]; rfl))) hn

theorem Visible.refreshed_perm (h : Visible s ps) : ((s.getBlocks s.blocks.keys).map s.refreshBlock).Perm (placed 0 ps) := by
  have h1 : (s.getBlocks s.blocks.keys).Perm (s.getBlocks (ps.map SPara.id)) := h.keys.filterMap _
  refine (h1.map _).trans (.of_eq ?_)
  have h2 : s.getBlocks (ps.map SPara.id) = ps.map fun p => p.entity (s.storedPos p) := by
    unfold Store.getBlocks
    rw [List.filterMap_map]
    have : ∀ qs : List SPara, (∀ q ∈ qs, q ∈ ps) → qs.filterMap ((fun i => s.blocks i) ∘ SPara.id) = qs.map fun p => p.entity (s.storedPos p) := by
      intro qs
      induction qs with
      | nil => intro _; rfl
      | cons q qs ih =>
        intro hq
        rw [List.filterMap_cons, Function.comp_apply, h.stored (hq q (by simp)), ih fun x hx => hq x (by simp [hx])]
        rfl
    exact this ps fun q hq => hq
  rw [h2, List.map_map]
  have h3 : ∀ (L R : List SPara), ps = L ++ R → (R.map (s.refreshBlock ∘ fun p => p.entity (s.storedPos p))) =
      placed (paraStart ps L.length : Int) R := by
    intro L R
    induction R generalizing L with
    | nil => intro _; rfl
    | cons q R ih =>
      intro e
      have hq : ps[L.length]? = some q := by rw [e]; simp
      rw [List.map_cons, placed, Function.comp_apply, h.refresh hq (h.stored (List.mem_of_getElem? hq)), ih (L ++ [q]) (by simp [e])]
      congr 2
      rw [List.length_append]
      show ((paraStart ps (L.length + 1) : Nat) : Int) = _
      rw [paraStart_succ hq, show q.text.length = q.chars.length by simp [SPara.text]]
      push_cast; omega
  exact h3 [] ps rfl

theorem Visible.allSorted (h : Visible s ps) : s.allSorted = placed 0 ps :=
  eq_of_sorted Block.documentPosition ((sortByKey_perm _ _).trans h.refreshed_perm) (sortByKey_sorted _ _) (placed_strict 0 ps)

theorem placed_getElem (ps : List SPara) (n : Nat) : (placed 0 ps)[n]?.map Block.id = ps[n]?.map SPara.id := by
  rw [← List.getElem?_map, placed_ids, List.getElem?_map]

theorem Visible.placed_index (h : Visible s ps) {n : Nat} (hn : ps[n]? = some p) :
    ((placed 0 ps).findIdx? fun b => b.id == p.id) = some n := by
  obtain ⟨L, R, rfl, e0, _⟩ := para_split hn
  rw [placed_find 0 L R p h.ids_nodup, e0]

theorem Visible.blocks (h : Visible s ps) : s.blockIds = ps.map SPara.id ∧ ∀ n, s.blockByNumber n = ps[n]?.map SPara.id := by
  unfold Store.blockIds Store.blockByNumber
  rw [h.allSorted]
  exact ⟨placed_ids 0 ps, placed_getElem ps⟩

theorem Visible.handle (h : Visible s ps) {n : Nat} (hn : ps[n]? = some p) :
    s.blockValid p.id = true ∧ s.numberOf p.id = n ∧
      s.blockAfter p.id = ps[n + 1]?.map SPara.id ∧
      s.blockBefore p.id = (if n = 0 then none else ps[n - 1]?.map SPara.id) ∧
      s.blockText p.id = some (p.chars.map Prod.fst) ∧ s.blockLength p.id = p.chars.length ∧
      s.blockIsEmpty p.id = some (decide (p.chars = [])) ∧ s.blockPosition p.id = paraStart ps n ∧
      s.blockFormatOf p.id = .ofBlock p.shape := by
  have hp := List.mem_of_getElem? hn
  have hs := h.stored hp
  have hid : (p.entity (s.storedPos p)).id = p.id := rfl
  refine ⟨?_, ?_, ?_, ?_, ?_, ?_, ?_, h.position hn, ?_⟩
  · unfold Store.blockValid; rw [hs]; rfl
  · unfold Store.numberOf; rw [h.allSorted, h.placed_index hn]; rfl
  · unfold Store.blockAfter; rw [h.allSorted, h.placed_index hn, Option.bind_some, placed_getElem]
  · unfold Store.blockBefore; rw [h.allSorted, h.placed_index hn, Option.bind_some, placed_getElem]
  · unfold Store.blockText; rw [hs]; dsimp only; rw [hid, h.content hp]; rfl
  · unfold Store.blockLength; rw [hs, Option.bind_some, hid, h.charLength hp]; simp [SPara.text]
  · unfold Store.blockIsEmpty; rw [hs]; dsimp only; rw [hid, h.charLength hp]
    rw [Option.map_some, SPara.text, List.length_map]
    congr 1
    exact decide_eq_decide.mpr List.length_eq_zero_iff
  · unfold Store.blockFormatOf; rw [hs]; rfl

theorem Visible.no_handle (h : Visible s ps) {id : Nat} (hn : id ∉ ps.map SPara.id) :
    s.blockValid id = false ∧ s.numberOf id = 0 ∧ s.blockAfter id = none ∧ s.blockBefore id = none ∧
      s.blockText id = some [] ∧ s.blockLength id = 0 ∧ s.blockIsEmpty id = some true ∧ s.blockPosition id = 0 ∧
      s.blockFormatOf id = {} := by
  have hs := h.absent hn
  have hi : (s.allSorted.findIdx? fun b => b.id == id) = none := by
    rw [List.findIdx?_eq_none_iff, h.allSorted]
    intro b hb
    have : b.id ∈ (placed 0 ps).map Block.id := List.mem_map_of_mem hb
    rw [placed_ids] at this
    simp only [beq_eq_false_iff_ne]
    rintro rfl; exact hn this
  refine ⟨?_, ?_, ?_, ?_, ?_, ?_, ?_, ?_, ?_⟩
  · unfold Store.blockValid; rw [hs]; rfl
  · unfold Store.numberOf; rw [hi]; rfl
  · unfold Store.blockAfter; rw [hi]; rfl
  · unfold Store.blockBefore; rw [hi]; rfl
  · unfold Store.blockText; rw [hs]
  · unfold Store.blockLength; rw [hs]; rfl
  · unfold Store.blockIsEmpty; rw [hs]
  · unfold Store.blockPosition; rw [hs]
  · unfold Store.blockFormatOf; rw [hs]; rfl

/-! ### Fragments -/

theorem Visible.fragments (h : Visible s ps) (hp : p ∈ ps) :
    ∃ fs, buildRawFragments {} p.text ((s.formatRuns p.id).getD []) ((s.blockImages p.id).getD []) = some fs ∧
      fragItems fs = (p.chars.map fun c => Item.char c.1 (c.2.getD {})) ∧ FragOffsetsOk fs ∧ FragImageOffsetsOk fs := by
  have hi : (s.blockImages p.id).getD [] = [] := h.images p hp
  have hok := h.formats p hp
  rw [hi]
  obtain ⟨fs, h1, h2, h3, h4⟩ := C07_fragments_tile ({} : CharFormat) p.text _ [] hok.wf
    ⟨by simp, by simp⟩ hok.aligned
  refine ⟨fs, h1, ?_, h3, h4⟩
  rw [h2]
  have := reading_styled {} [] p.chars (runs := (s.formatRuns p.id).getD []) hok.fmt
  simpa [SPara.text] using this

theorem Visible.fragmentsOf (h : Visible s ps) (hp : p ∈ ps) :
    ∃ fs, s.fragmentsOf p.id = some fs ∧
      fragItems fs = (p.chars.map fun c => Item.char c.1 (c.2.getD {})) ∧ FragOffsetsOk fs ∧ FragImageOffsetsOk fs := by
  obtain ⟨fs, h1, h2⟩ := h.fragments hp
  refine ⟨fs, ?_, h2⟩
  unfold Store.fragmentsOf
  rw [h.stored hp]
  dsimp only
  rw [show (p.entity (s.storedPos p)).id = p.id from rfl, h.content hp, Option.bind_some, h1]

theorem Visible.listInfo (h : Visible s ps) {n : Nat} (hn : ps[n]? = some p) (pos : Int) {l : Nat} {tl : TList}
    (hl : p.shape.list = some l) (ht : s.lists l = some tl) :
    s.listInfoOf (p.entity pos) = some ⟨l, tl.style, intToU8 tl.indent,
      formatListMarker tl (itemsOf (ps.take n) l).length, (itemsOf (ps.take n) l).length⟩ := by
  unfold Store.listInfoOf
  rw [show (p.entity pos).list = some l from hl, Option.bind_some, ht, Option.map_some]
  have : s.listIndexOf l p.id = (itemsOf (ps.take n) l).length := item_number h.refreshed_perm h.ids_nodup hn hl
  rw [show (p.entity pos).id = p.id from rfl, this]

/-- The one snapshot of a paragraph, whichever way it is asked for. -/
theorem Visible.blockSnap (h : Visible s ps) {n : Nat} (hn : ps[n]? = some p) (hf : s.parentFrame p.id = some g)
    (hc : (if s.tables.keys = [] then none else s.tableCellOf p.id) = c) :
    ∃ snap, SnapShows s g c ps n p snap ∧ (∀ computed hint, (computed = none ∨ computed = some (paraStart ps n)) →
      (hint = none ∨ hint = some g) → s.blockSnap p.id computed hint = some (some snap)) ∧
      ∀ (x : Int), s.blockSnapOf (p.entity x) (some (paraStart ps n)) none = some snap := by
  have hp := List.mem_of_getElem? hn
  obtain ⟨fs, h1, h2, h3, _⟩ := h.fragments hp
  have hs := h.stored hp
  have hr : (s.refreshBlock (p.entity (s.storedPos p))).documentPosition = (paraStart ps n : Int) := by
    rw [h.refresh hn hs]; rfl
  have hli : ∀ x, s.listInfoOf (p.entity x) = s.listInfoOf (p.entity (s.storedPos p)) := fun _ => rfl
  refine ⟨⟨p.id, paraStart ps n, p.chars.length, p.chars.map Prod.fst, fs, .ofBlock p.shape,
    s.listInfoOf (p.entity (s.storedPos p)), some g, c⟩, ⟨rfl, rfl, rfl, rfl, h2, h3, rfl, ?_, ?_, rfl, rfl⟩, ?_, ?_⟩
  · intro hl
    show (p.entity _).list.bind _ = none
    rw [show (p.entity (s.storedPos p)).list = none from hl]; rfl
  · intro l tl hl ht
    exact ⟨_, h.listInfo hn _ hl ht, rfl, rfl, rfl, rfl, rfl⟩
  · intro computed hint hcm hh
    unfold Store.blockSnap
    rw [hs]
    dsimp only
    unfold Store.blockSnapOf
    rw [show (p.entity (s.storedPos p)).id = p.id from rfl, h.content hp, Option.bind_some, h.charLength hp,
      Option.bind_some, h1, Option.map_some, Option.map_some, hc, hf, hr]
    congr 2
    rcases hcm with rfl | rfl <;> rcases hh with rfl | rfl <;> simp [SPara.text] <;> rfl
  · intro x
    unfold Store.blockSnapOf
    rw [show (p.entity x).id = p.id from rfl, h.content hp, Option.bind_some, h.charLength hp,
      Option.bind_some, h1, Option.map_some, hc, hf, hli]
    simp [SPara.text]
    rfl

theorem Visible.blockSnapshot (h : Visible s ps) {n : Nat} (hn : ps[n]? = some p) (hf : s.parentFrame p.id = some g)
    (hc : (if s.tables.keys = [] then none else s.tableCellOf p.id) = c) :
    ∃ snap, s.blockSnapshot p.id = some snap ∧ SnapShows s g c ps n p snap := by
  obtain ⟨snap, h1, h2, _⟩ := h.blockSnap hn hf hc
  refine ⟨snap, ?_, h1⟩
  unfold Store.blockSnapshot
  rw [h2 none none (.inl rfl) (.inl rfl)]; rfl

theorem Visible.snapWalk_found (h : Visible s ps) {n k : Nat} (hn : ps[n]? = some p) (hk : k ≤ p.chars.length)
    (L R : List SPara) (e : ps = L ++ R) (hL : L.length ≤ n) :
    s.snapWalk (paraStart ps n + k) (R.map SPara.id) (paraStart ps L.length) =
      s.blockSnap p.id (some (paraStart ps n)) none := by
  induction R generalizing L with
  | nil =>
    have := (List.getElem?_eq_some_iff.mp hn).1
    rw [e, List.append_nil] at this; omega
  | cons q R ih =>
    have hq : ps[L.length]? = some q := by rw [e]; simp
    have hqm := List.mem_of_getElem? hq
    rw [List.map_cons, Store.snapWalk, h.stored hqm, Option.bind_some,
      show (q.entity (s.storedPos q)).id = q.id from rfl, h.charLength hqm, Option.bind_some]
    have hql : q.text.length = q.chars.length := by simp [SPara.text]
    rw [hql]
    by_cases hc : L.length = n
    · rw [hc] at hq
      rw [hn] at hq; cases hq
      rw [hc, if_pos (by omega)]
    · have := paraStart_lt hq (show L.length < n by omega)
      rw [if_neg (by omega)]
      have := ih (L ++ [q]) (by simp [e]) (by simp; omega)
      rw [List.length_append] at this
      rw [← this]
      show _ = s.snapWalk _ _ (paraStart ps (L.length + 1))
      rw [paraStart_succ hq]

theorem Visible.snapWalk_beyond (h : Visible s ps) {pos : Nat} (hb : docLen ps < pos)
    (L R : List SPara) (e : ps = L ++ R) :
    s.snapWalk pos (R.map SPara.id) (paraStart ps L.length) = some none := by
  induction R generalizing L with
  | nil => rfl
  | cons q R ih =>
    have hq : ps[L.length]? = some q := by rw [e]; simp
    have hqm := List.mem_of_getElem? hq
    have := paraEnd_le hq
    have hql : q.text.length = q.chars.length := by simp [SPara.text]
    rw [List.map_cons, Store.snapWalk, h.stored hqm, Option.bind_some,
      show (q.entity (s.storedPos q)).id = q.id from rfl, h.charLength hqm, Option.bind_some, hql,
      if_neg (by omega)]
    have := ih (L ++ [q]) (by simp [e])
    rw [List.length_append] at this
    rw [← paraStart_succ hq]; exact this

theorem Visible.at_position (h : Visible s ps) {n k : Nat} (hn : ps[n]? = some p) (hk : k ≤ p.chars.length)
    (hf : s.parentFrame p.id = some g) (hc : (if s.tables.keys = [] then none else s.tableCellOf p.id) = c) :
    ∃ snap, s.snapshotBlockAt (paraStart ps n + k) = some (some snap) ∧ SnapShows s g c ps n p snap := by
  obtain ⟨snap, h1, h2, _⟩ := h.blockSnap hn hf hc
  refine ⟨snap, ?_, h1⟩
  unfold Store.snapshotBlockAt
  rw [h.main, Option.bind_some]
  have := h.snapWalk_found hn hk [] ps rfl (Nat.zero_le _)
  rw [show paraStart ps ([] : List SPara).length = 0 from rfl] at this
  rw [this, h2 _ _ (.inr rfl) (.inl rfl)]; rfl

theorem Visible.at_beyond (h : Visible s ps) {pos : Nat} (hpos : (docText ps).length < pos) (hl : ps.getLast? = some p)
    (hf : s.parentFrame p.id = some g) (hc : (if s.tables.keys = [] then none else s.tableCellOf p.id) = c) :
    ∃ snap, s.snapshotBlockAt pos = some (some snap) ∧ SnapShows s g c ps (ps.length - 1) p snap := by
  have hlen : (docText ps).length = docLen ps := by rw [docText_chars]; simp [docChars_length]
  have hn : ps[ps.length - 1]? = some p := by rw [← List.getLast?_eq_getElem?]; exact hl
  obtain ⟨snap, h1, h2, _⟩ := h.blockSnap hn hf hc
  refine ⟨snap, ?_, h1⟩
  unfold Store.snapshotBlockAt
  rw [h.main, Option.bind_some]
  have := h.snapWalk_beyond (pos := pos) (by omega) [] ps rfl
  rw [show paraStart ps ([] : List SPara).length = 0 from rfl] at this
  rw [this, Option.bind_some]
  dsimp only
  rw [List.getLast?_map, hl, Option.map_some]
  dsimp only
  exact h2 _ _ (.inl rfl) (.inl rfl)

theorem Visible.range_walk (h : Visible s ps) (P : Nat → Nat → Bool) (r : Nat) (qs : List SPara) (hq : ∀ q ∈ qs, q ∈ ps) :
    ∃ l, mapOpt (fun b : Block => (blockCharLength s.text b.id).map fun (len : Nat) =>
        (b.id, P b.documentPosition.toNat len)) (placed (r : Int) qs) = some l ∧
      l.map Prod.fst = qs.map SPara.id ∧
      ∀ (i : Nat) q, qs[i]? = some q → l[i]? = some (q.id, P (r + paraStart qs i) q.chars.length) := by
  induction qs generalizing r with
  | nil => exact ⟨[], rfl, rfl, by intro i q hi; simp at hi⟩
  | cons q qs ih =>
    obtain ⟨l, h1, h2, h3⟩ := ih (r + (q.text.length + 1)) fun x hx => hq x (by simp [hx])
    have hql : q.text.length = q.chars.length := by simp [SPara.text]
    refine ⟨(q.id, P r q.chars.length) :: l, ?_, by simp [h2], ?_⟩
    · rw [placed, mapOpt]
      rw [show (q.entity (r : Int)).id = q.id from rfl, show (q.entity (r : Int)).documentPosition.toNat = r from by
        show (r : Int).toNat = r; simp, h.charLength (hq q (by simp)), Option.map_some, Option.bind_some]
      have : ((r : Int) + ((q.text.length : Int) + 1)) = ((r + (q.text.length + 1) : Nat) : Int) := by omega
      rw [this, h1, hql]
      rfl
    · intro i x hx
      cases i with
      | zero =>
        simp only [List.getElem?_cons_zero, Option.some.injEq] at hx
        subst hx; simp [paraStart]
      | succ i =>
        rw [List.getElem?_cons_succ] at hx ⊢
        rw [h3 i x hx]
        congr 3
        simp [paraStart, hql]; omega

theorem Visible.in_range (h : Visible s ps) (position length : Nat) :
    ∃ ids, s.blocksInRange position length = some ids ∧ ids.Sublist (ps.map SPara.id) ∧
      ∀ n p, ps[n]? = some p → (p.id ∈ ids ↔
        (length = 0 ∧ paraStart ps n ≤ position ∧ position < paraStart ps n + p.chars.length) ∨
        (0 < length ∧ paraStart ps n < position + length ∧ position < paraStart ps n + p.chars.length)) := by
  obtain ⟨l, h1, h2, h3⟩ := h.range_walk (fun lo len => if length = 0 then decide (lo ≤ position ∧ position < lo + len)
      else decide (lo < position + length ∧ position < lo + len)) 0 ps fun q hq => hq
  refine ⟨(l.filter Prod.snd).map Prod.fst, ?_, ?_, ?_⟩
  · unfold Store.blocksInRange
    rw [h.allSorted]
    have : ((0 : Nat) : Int) = 0 := rfl
    rw [this] at h1
    dsimp only
    rw [h1]; rfl
  · rw [← h2]
    exact List.filter_sublist.map _
  · intro n p hn
    have hx := h3 n p hn
    have hnd : (l.map Prod.fst).Nodup := by rw [h2]; exact h.ids_nodup
    have hmem : p.id ∈ (l.filter Prod.snd).map Prod.fst ↔
        (if length = 0 then decide (0 + paraStart ps n ≤ position ∧ position < 0 + paraStart ps n + p.chars.length)
          else decide (0 + paraStart ps n < position + length ∧ position < 0 + paraStart ps n + p.chars.length)) = true := by
      constructor
      · intro hm
        obtain ⟨y, hy, hyi⟩ := List.mem_map.mp hm
        obtain ⟨hy1, hy2⟩ := List.mem_filter.mp hy
        obtain ⟨j, hj⟩ := List.mem_iff_getElem?.mp hy1
        have e1 : (l.map Prod.fst)[j]? = some p.id := by rw [List.getElem?_map, hj, Option.map_some, hyi]
        have e2 : (l.map Prod.fst)[n]? = some p.id := by rw [List.getElem?_map, hx]; rfl
        have : j = n := by
          exact (List.getElem?_inj (List.getElem?_eq_some_iff.mp e1).1 hnd).mp (by rw [e1, e2])
        subst this
        rw [hx] at hj
        simp only [Option.some.injEq] at hj
        rw [← hj] at hy2
        exact hy2
      · intro hb
        exact List.mem_map.mpr ⟨_, List.mem_filter.mpr ⟨List.mem_of_getElem? hx, hb⟩, rfl⟩
    rw [hmem]
    by_cases hl : length = 0
    · rw [if_pos hl, decide_eq_true_iff]; omega
    · rw [if_neg hl, decide_eq_true_iff]; omega

/-! ### Formats and elements -/

/-- The format of an item. -/
def itemFormat : Item CharFormat → CharFormat
  | .char _ f => f
  | .image i => i.fmt

theorem fragFormatAt_spec {fs : List (Frag CharFormat)} (h1 : FragOffsetsOk fs) (h2 : FragImageOffsetsOk fs)
    (a r : List (Frag CharFormat)) (e : fs = a ++ r) (k : Nat) :
    fragFormatAt ((fragItems a).length + k) r = (fragItems r)[k]?.map itemFormat := by
  induction r generalizing a k with
  | nil => simp [fragFormatAt, fragItems]
  | cons x r ih =>
    cases x with
    | text cs fmt o n byte =>
      obtain ⟨ho, hn⟩ := h1 a r cs fmt o n byte e
      have hr : fragItems (.text cs fmt o n byte :: r) = cs.map (.char · fmt) ++ fragItems r := rfl
      rw [fragFormatAt, hr]
      by_cases hk : k < cs.length
      · rw [if_pos (by omega), List.getElem?_append_left (by simpa using hk), List.getElem?_map,
          List.getElem?_eq_getElem hk]; rfl
      · rw [if_neg (by omega), List.getElem?_append_right (by simp; omega), List.length_map]
        have := ih (a ++ [.text cs fmt o n byte]) (by simp [e]) (k - cs.length)
        rw [← this, fragItems_append]
        congr 1
        have : fragItems [Frag.text cs fmt o n byte] = cs.map (.char · fmt) := by simp [fragItems]
        rw [this]; simp; omega
    | image i o =>
      have ho := h2 a r i o e
      have hr : fragItems (.image i o :: r) = .image i :: fragItems r := rfl
      rw [fragFormatAt, hr]
      cases k with
      | zero => rw [if_pos (by omega)]; rfl
      | succ k =>
        rw [if_neg (by omega), List.getElem?_cons_succ]
        have := ih (a ++ [.image i o]) (by simp [e]) k
        rw [← this, fragItems_append]
        congr 1
        have : fragItems [Frag.image i o] = [.image i] := rfl
        rw [this]; simp; omega

theorem Visible.char_at (h : Visible s ps) (hp : p ∈ ps) (k : Nat) :
    s.blockCharFormat p.id k = some (p.chars[k]?.map fun c => c.2.getD {}) := by
  obtain ⟨fs, h1, h2, h3, h4⟩ := h.fragmentsOf hp
  unfold Store.blockCharFormat
  rw [h1, Option.map_some]
  have := fragFormatAt_spec h3 h4 [] fs rfl k
  have h0 : (fragItems ([] : List (Frag CharFormat))).length + k = k := by simp [fragItems]
  rw [h0] at this
  rw [this, h2, List.getElem?_map]
  cases p.chars[k]? <;> rfl

theorem frags_text {fs : List (Frag CharFormat)} (ha : ∀ x ∈ fragItems fs, ∃ c fm, x = .char c fm) :
    ∀ x ∈ fs, ∃ cs fmt o n byte, x = .text cs fmt o n byte := by
  intro x hx
  cases x with
  | text cs fmt o n byte => exact ⟨_, _, _, _, _, rfl⟩
  | image i o =>
    obtain ⟨c, fm, e⟩ := ha (.image i) (List.mem_flatMap.mpr ⟨_, hx, by simp⟩)
    cases e

theorem fragElement_inside {fs : List (Frag CharFormat)} (h1 : FragOffsetsOk fs)
    (ht : ∀ x ∈ fs, ∃ cs fmt o n byte, x = .text cs fmt o n byte)
    (start K : Nat) (a r : List (Frag CharFormat)) (e : fs = a ++ r) (last : Option (Nat × Nat × Nat))
    (hK : (fragItems a).length ≤ K) (hr : K < (fragItems fs).length) :
    ∃ cs fmt o n byte, .text cs fmt o n byte ∈ fs ∧ o ≤ K ∧ K < o + n ∧
      fragElement start K last r = some (byte, start + o, K - o) := by
  induction r generalizing a last with
  | nil => rw [e, List.append_nil] at hr; omega
  | cons x r ih =>
    have hx : x ∈ fs := by rw [e]; simp
    obtain ⟨cs, fmt, o, n, byte, rfl⟩ := ht x hx
    obtain ⟨ho, hn⟩ := h1 a r cs fmt o n byte e
    rw [fragElement]
    by_cases hk : K ≥ o ∧ K < o + n
    · rw [if_pos hk]
      exact ⟨cs, fmt, o, n, byte, hx, hk.1, hk.2, rfl⟩
    · rw [if_neg hk]
      apply ih (a ++ [.text cs fmt o n byte]) (by simp [e])
      rw [fragItems_append, List.length_append]
      have : fragItems [Frag.text cs fmt o n byte] = cs.map (.char · fmt) := by simp [fragItems]
      rw [this, List.length_map]; omega

theorem fragElement_end {fs : List (Frag CharFormat)} (h1 : FragOffsetsOk fs)
    (ht : ∀ x ∈ fs, ∃ cs fmt o n byte, x = .text cs fmt o n byte)
    (start : Nat) (a r : List (Frag CharFormat)) (e : fs = a ++ r) (last : Option (Nat × Nat × Nat)) (hr : r ≠ []) :
    ∃ cs fmt o n byte, .text cs fmt o n byte ∈ fs ∧ (fragItems fs).length = o + n ∧
      fragElement start (fragItems fs).length last r = some (byte, start + o, n) := by
  induction r generalizing a last with
  | nil => exact absurd rfl hr
  | cons x r ih =>
    have hx : x ∈ fs := by rw [e]; simp
    obtain ⟨cs, fmt, o, n, byte, rfl⟩ := ht x hx
    obtain ⟨ho, hn⟩ := h1 a r cs fmt o n byte e
    have hlen : (fragItems fs).length = o + n + (fragItems r).length := by
      rw [e, fragItems_append, List.length_append, ho, hn]
      have : fragItems (.text cs fmt o n byte :: r) = cs.map (.char · fmt) ++ fragItems r := rfl
      rw [ho, hn] at this
      rw [this]; simp; omega
    rw [fragElement, if_neg (by omega)]
    by_cases hne : r = []
    · subst hne
      have : (fragItems fs).length = o + n := by rw [hlen]; simp [fragItems]
      rw [if_pos this]
      exact ⟨cs, fmt, o, n, byte, hx, this, rfl⟩
    · exact ih (a ++ [.text cs fmt o n byte]) (by simp [e]) _ hne

theorem Visible.element (h : Visible s ps) {pos n k : Nat} (hi : InParagraph ps pos n k p) (hne : p.chars ≠ []) :
    ∃ fs cs fmt o len byte, s.fragmentsOf p.id = some fs ∧ .text cs fmt o len byte ∈ fs ∧ cs.length = len ∧
      cs = ((p.chars.drop o).take len).map Prod.fst ∧
      o ≤ k ∧ (k < o + len ∨ k = p.chars.length ∧ k = o + len) ∧
      s.elementAt pos = some (synthElementId p.id byte, paraStart ps n + o, k - o) := by
  have hb := hi.at h.toReads
  obtain ⟨hn, rfl, hk, _⟩ := hi
  have hp := List.mem_of_getElem? hn
  obtain ⟨fs, h1, h2, h3, h4⟩ := h.fragmentsOf hp
  have ht : ∀ x ∈ fs, ∃ cs fmt o n byte, x = .text cs fmt o n byte := by
    apply frags_text
    rw [h2]
    intro x hx
    obtain ⟨c, _, rfl⟩ := List.mem_map.mp hx
    exact ⟨_, _, rfl⟩
  have hlen : (fragItems fs).length = p.chars.length := by rw [h2]; simp
  have hcs : ∀ cs fmt o len byte, Frag.text cs fmt o len byte ∈ fs →
      cs.length = len ∧ cs = ((p.chars.drop o).take len).map Prod.fst := by
    intro cs fmt o len byte hm
    obtain ⟨a, b, e⟩ := List.append_of_mem hm
    obtain ⟨ho, hl⟩ := h3 a b cs fmt o len byte e
    refine ⟨hl.symm, ?_⟩
    have hx : p.chars.map (fun c => (Item.char c.1 (c.2.getD {}) : Item CharFormat)) =
        fragItems a ++ (cs.map (.char · fmt) ++ fragItems b) := by
      rw [← h2, e, fragItems_append]; rfl
    have hy := congrArg (fun l : List (Item CharFormat) => (l.drop o).take len) hx
    rw [ho, List.drop_left, hl, show cs.length = (cs.map fun c => (Item.char c fmt : Item CharFormat)).length by simp,
      List.take_left, ← List.map_drop, ← List.map_take] at hy
    have hz := congrArg (List.map fun (i : Item CharFormat) => match i with | .char c _ => c | .image _ => ' ') hy
    rw [List.map_map, List.map_map] at hz
    have e1 : ((fun (i : Item CharFormat) => match i with | .char c _ => c | .image _ => ' ') ∘ fun c => Item.char c fmt) = id := rfl
    rw [e1, List.map_id] at hz
    rw [ho, hl, ← hz]
    simp [Function.comp_def]
  unfold Store.elementAt
  rw [hb, Option.bind_some]
  have hst : (infoOf ps n p).start.toNat = paraStart ps n := by show ((paraStart ps n : Nat) : Int).toNat = _; simp
  rw [hst, if_neg (by omega), show (infoOf ps n p).blockId = p.id from rfl, h1, Option.bind_some,
    show paraStart ps n + k - paraStart ps n = k by omega]
  by_cases hkl : k < p.chars.length
  · obtain ⟨cs, fmt, o, len, byte, g1, g2, g3, g4⟩ := fragElement_inside h3 ht (paraStart ps n) k [] fs rfl none
      (by simp [fragItems]) (by omega)
    rw [g4]
    exact ⟨fs, cs, fmt, o, len, byte, rfl, g1, (hcs _ _ _ _ _ g1).1, (hcs _ _ _ _ _ g1).2, g2, .inl g3, rfl⟩
  · have hke : k = (fragItems fs).length := by omega
    have hfs : fs ≠ [] := by
      rintro rfl
      have : p.chars.length = 0 := by rw [← hlen]; rfl
      exact hne (List.length_eq_zero_iff.mp this)
    obtain ⟨cs, fmt, o, len, byte, g1, g2, g3⟩ := fragElement_end h3 ht (paraStart ps n) [] fs rfl none hfs
    rw [hke, g3]
    refine ⟨fs, cs, fmt, o, len, byte, rfl, g1, (hcs _ _ _ _ _ g1).1, (hcs _ _ _ _ _ g1).2, by omega, .inr ⟨by omega, g2⟩, ?_⟩
    rw [g2, Nat.add_sub_cancel_left]; rfl


end Verif

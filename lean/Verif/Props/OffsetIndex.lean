import Verif.Lemmas.RopeRead
/-
C09, C10: the paragraph index.
-/
namespace Verif

/-! ## C09 -/

/-- The operations of the index (block_offset_index.rs). -/
inductive IndexOp where
  | setTotal (n : Nat)
  | insertAt (position : Nat) (m : Marker) (bs : Nat)
  | push (m : Marker) (bs : Nat)
  | removeAt (position : Nat)
  | drain (start stop : Nat)
  | clear
  | rebuild
  | shiftAfter (threshold : Nat) (d : Int)

/-- Run one operation; `none` is a panic. -/
def IndexOp.run : IndexOp → Index → Option Index
  | .setTotal n, x => some (x.setTotal n)
  | .insertAt p m bs, x => x.insertAt p m bs
  | .push m bs, x => some (x.push m bs)
  | .removeAt p, x => x.removeAt p
  | .drain s e, x => x.drainInclusive s e
  | .clear, x => some x.clear
  | .rebuild, x => some x.rebuild
  | .shiftAfter t d, x => x.shiftAfter t d

/-- The only rule for callers: do not add a paragraph or table that is already there. -/
def IndexOp.Fresh : IndexOp → Index → Prop
  | .insertAt _ m _, x => m ∉ x.entries.map Prod.fst
  | .push m _, x => m ∉ x.entries.map Prod.fst
  | _, _ => True

/-- A history of operations, each respecting the rule. -/
inductive IndexHistory : Index → Prop where
  | new : IndexHistory Index.empty
  | step {x x' : Index} (op : IndexOp) : IndexHistory x → op.Fresh x → op.run x = some x' →
      IndexHistory x'

theorem C09_step_keeps_caches {x x' : Index} (op : IndexOp) (h : CacheOk x) (hf : op.Fresh x)
    (hr : op.run x = some x') : CacheOk x' := by
  cases op with
  | setTotal n => simp only [IndexOp.run, Option.some.injEq] at hr; subst hr; exact cacheOk_setTotal n h
  | insertAt p m bs => exact cacheOk_insertAt h hf hr
  | push m bs => simp only [IndexOp.run, Option.some.injEq] at hr; subst hr; exact cacheOk_push h hf
  | removeAt p => exact cacheOk_removeAt h hr
  | drain s e => exact cacheOk_drainInclusive h hr
  | clear => simp only [IndexOp.run, Option.some.injEq] at hr; subst hr; exact cacheOk_empty
  | rebuild => simp only [IndexOp.run, Option.some.injEq] at hr; subst hr; exact cacheOk_rebuild h.nodup
  | shiftAfter t d => exact cacheOk_shiftAfter h hr

/-- After any history, looking an entry up by its marker gives its true place in the list, no
marker occurs twice, and the table count is the number of table entries. -/
theorem C09_history_keeps_caches {x : Index} (h : IndexHistory x) :
    (∀ m i, x.positionOf m = some i ↔ (x.entries[i]?).map Prod.fst = some m) ∧
    (x.entries.map Prod.fst).Nodup ∧
    x.anchors = (x.entries.filter fun e => e.1.isTable).length := by
  have : CacheOk x := by
    induction h with
    | new => exact cacheOk_empty
    | step op _ hf hr ih => exact C09_step_keeps_caches op ih hf hr
  exact ⟨this.pos, this.nodup, this.anchors⟩

/-- The byte range of an entry starts at its start byte and ends where the next entry starts (or at
the end of the text), without panic; an absent marker has no range. -/
theorem C09_ranges {x : Index} (h : IndexHistory x) :
    (∀ A m s m' s' B, x.entries = A ++ (m, s) :: (m', s') :: B →
      x.rangeOf m = some (some (s, s')) ∧ x.rangeWithSuccessor m = some (some (s, s', true))) ∧
    (∀ A m s, x.entries = A ++ [(m, s)] →
      x.rangeOf m = some (some (s, x.total)) ∧
      x.rangeWithSuccessor m = some (some (s, x.total, false))) ∧
    (∀ m, m ∉ x.entries.map Prod.fst →
      x.rangeOf m = some none ∧ x.rangeWithSuccessor m = some none) := by
  obtain ⟨hp, _, _⟩ := C09_history_keeps_caches h
  refine ⟨?_, ?_, ?_⟩
  · intro A m s m' s' B he
    have h1 : x.entries[A.length]? = some (m, s) := by rw [he]; simp
    have h2 : x.entries[A.length + 1]? = some (m', s') := by
      rw [he, List.getElem?_append_right (by simp)]; simp
    have h3 : x.pos m = some A.length := (hp m A.length).mpr (by rw [h1]; rfl)
    simp [Index.rangeOf, Index.rangeWithSuccessor, h1, h2, h3]
  · intro A m s he
    have h1 : x.entries[A.length]? = some (m, s) := by rw [he]; simp
    have h2 : x.entries[A.length + 1]? = none := by rw [he]; simp
    have h3 : x.pos m = some A.length := (hp m A.length).mpr (by rw [h1]; rfl)
    simp [Index.rangeOf, Index.rangeWithSuccessor, h1, h2, h3]
  · intro m hm
    have h3 : x.pos m = none := by
      rw [Option.eq_none_iff_forall_ne_some]
      intro i hi
      have := (hp m i).mp hi
      simp only [Option.map_eq_some_iff] at this
      obtain ⟨e, he, rfl⟩ := this
      exact hm (List.mem_map_of_mem (List.mem_of_getElem? he))
    simp [Index.rangeOf, Index.rangeWithSuccessor, h3]

/-- What each operation does to the ordered list of entries. -/
theorem C09_entries (x x' : Index) :
    (∀ p m bs, x.insertAt p m bs = some x' →
      x'.entries = x.entries.take p ++ (m, bs) :: x.entries.drop p ∧ x'.total = x.total) ∧
    (∀ p, x.removeAt p = some x' →
      x'.entries = x.entries.take p ++ x.entries.drop (p + 1) ∧ x'.total = x.total) ∧
    (∀ s e, x.drainInclusive s e = some x' →
      x'.entries = x.entries.take s ++ x.entries.drop (e + 1) ∧ x'.total = x.total) ∧
    (∀ t d, x.shiftAfter t d = some x' → x.entries.Pairwise (fun a b => a.2 < b.2) →
      (x'.entries.map fun e => (e.1, (e.2 : Int))) =
        (x.entries.map fun e => (e.1, if e.2 < t then (e.2 : Int) else e.2 + d)) ∧
      (x'.total : Int) = x.total + d) := by
  refine ⟨?_, ?_, ?_, ?_⟩
  · intro p m bs h
    unfold Index.insertAt at h
    split at h
    · rename_i hp
      simp only [Option.some.injEq] at h; subst h
      refine ⟨?_, rfl⟩
      have := insertIdx_append_len (x.entries.take p) (x.entries.drop p) (m, bs)
      rw [List.take_append_drop, List.length_take, Nat.min_eq_left hp] at this
      exact this
    · simp at h
  · intro p h
    unfold Index.removeAt at h
    split at h
    · simp at h
    · simp only [Option.some.injEq] at h; subst h
      exact ⟨List.eraseIdx_eq_take_drop_succ .., rfl⟩
  · intro s e h
    unfold Index.drainInclusive at h
    split at h
    · simp only [Option.some.injEq] at h; subst h; exact ⟨rfl, rfl⟩
    · simp at h
  · intro t d h hs
    unfold Index.shiftAfter at h
    simp only [Option.bind_eq_some_iff, Option.map_eq_some_iff] at h
    obtain ⟨tl, htl, n, hn, rfl⟩ := h
    have hdelta : ∀ {v n : Nat} {d : Int}, applyDelta v d = some n → (n : Int) = v + d := by
      intro v n d h
      unfold applyDelta at h
      split at h
      · simp only [Option.some.injEq] at h; omega
      · simp at h
    refine ⟨?_, hdelta hn⟩
    have hmap : ∀ {l tl : List (Marker × Nat)},
        (l.mapM fun e => (applyDelta e.2 d).map fun v => (e.1, v)) = some tl →
        (tl.map fun e => (e.1, (e.2 : Int))) = l.map fun e => (e.1, (e.2 : Int) + d) := by
      intro l
      induction l with
      | nil => intro tl h; simp at h; simp [h]
      | cons a l ih =>
        intro tl h
        simp only [List.mapM_cons, Option.bind_eq_bind, Option.bind_eq_some_iff,
          Option.map_eq_some_iff, Option.pure_def, Option.some.injEq] at h
        obtain ⟨y, ⟨v, hv, rfl⟩, z, hz, rfl⟩ := h
        simp [ih hz, hdelta hv]
    simp only [List.map_append]
    rw [hmap htl]
    unfold Index.lowerBound
    have hsplit : ∀ l : List (Marker × Nat), l.Pairwise (fun a b => a.2 < b.2) →
        ((l.take (l.takeWhile fun e => decide (e.2 < t)).length).map fun e => (e.1, (e.2 : Int))) ++
          ((l.drop (l.takeWhile fun e => decide (e.2 < t)).length).map fun e => (e.1, (e.2 : Int) + d)) =
        l.map fun e => (e.1, if e.2 < t then (e.2 : Int) else e.2 + d) := by
      intro l hl
      induction l with
      | nil => rfl
      | cons a l ih =>
        simp only [List.pairwise_cons] at hl
        by_cases ha : a.2 < t
        · simp only [List.takeWhile_cons, ha, decide_true, if_true, List.length_cons,
            List.take_succ_cons, List.drop_succ_cons, List.map_cons, List.cons_append, ih hl.2]
        · simp only [List.takeWhile_cons, ha, decide_false, List.length_nil, Bool.false_eq_true,
            if_false, List.take_zero, List.drop_zero, List.map_nil, List.nil_append, List.map_cons,
            List.cons.injEq, true_and]
          apply List.map_congr_left
          intro e he
          have := hl.1 e he
          rw [if_neg (by omega)]
    exact hsplit _ hs

/-- A history with five operations (two paragraphs and a table, one removed). -/
example : ∃ x, IndexHistory x ∧ x.entries = [(.block 7, 0), (.table 2, 6)] ∧ x.anchors = 1 :=
  ⟨_, .step (.shiftAfter 1 (-3)) (.step (.removeAt 1) (.step (.insertAt 1 (.block 8) 4)
    (.step (.push (.table 2) 9) (.step (.push (.block 7) 0) (.step (.setTotal 12) .new trivial rfl)
    (by unfold IndexOp.Fresh; decide) rfl) (by unfold IndexOp.Fresh; decide) rfl)
    (by unfold IndexOp.Fresh; decide) rfl) trivial rfl) trivial rfl, by decide, by decide⟩

/-! ## C10 -/

/-- On an ordered index a byte offset belongs to the last entry that starts at or before it; the end
of the text belongs to the last entry; past the end there is nothing. -/
theorem C10_marker_at_byte {x : Index} (h : IndexOrdered x) (b : Nat) (m : Marker) :
    x.markerAtByte b = some m ↔
      b ≤ x.total ∧ ∃ A s B, x.entries = A ++ (m, s) :: B ∧ s ≤ b ∧ ∀ e ∈ B, b < e.2 := by
  constructor
  · intro hm
    have hb : b ≤ x.total := by
      unfold Index.markerAtByte at hm
      split at hm
      · simp at hm
      · split at hm
        · simp at hm
        · omega
    refine ⟨hb, ?_⟩
    -- the split of the entries exists
    have hne : x.entries ≠ [] := by
      intro he; simp [Index.markerAtByte, he] at hm
    have key : ∀ l : List (Marker × Nat), l.Pairwise (fun a b => a.2 < b.2) → l ≠ [] →
        (∀ e, l.head? = some e → e.2 ≤ b) →
        ∃ A m s B, l = A ++ (m, s) :: B ∧ s ≤ b ∧ ∀ e ∈ B, b < e.2 := by
      intro l
      induction l with
      | nil => intro _ h; exact absurd rfl h
      | cons a l ih =>
        intro hp _ hh
        simp only [List.pairwise_cons] at hp
        by_cases hl : ∃ e, l.head? = some e ∧ e.2 ≤ b
        · obtain ⟨e, he, heb⟩ := hl
          have hlne : l ≠ [] := by rintro rfl; simp at he
          obtain ⟨A, m, s, B, h1, h2, h3⟩ := ih hp.2 hlne (by intro e' he'; simp_all)
          exact ⟨a :: A, m, s, B, by simp [h1], h2, h3⟩
        · refine ⟨[], a.1, a.2, l, by simp, hh a rfl, ?_⟩
          cases l with
          | nil => simp
          | cons e l =>
            intro e' he'
            have h1 : b < e.2 := by
              have := not_exists.mp hl e; simp at this; exact this
            simp only [List.mem_cons] at he'
            rcases he' with rfl | he'
            · exact h1
            · have := (List.pairwise_cons.mp hp.2).1 e' he'; omega
    obtain ⟨A, m', s, B, h1, h2, h3⟩ := key x.entries h.sorted hne (by
      intro e he; have := h.first e he; omega)
    have := markerAtByte_of_split h.sorted h1 h2 h3 hb
    rw [hm] at this
    simp only [Option.some.injEq] at this
    subst this
    exact ⟨A, s, B, h1, h2, h3⟩
  · rintro ⟨hb, A, s, B, h1, h2, h3⟩
    exact markerAtByte_of_split h.sorted h1 h2 h3 hb

/-- The offset of a byte inside its entry: never a panic, and start + offset is the byte. -/
theorem C10_byte_to_marker_byte {x : Index} (h : IndexOrdered x) (hc : CacheOk x) (b : Nat) :
    (b > x.total ∨ x.entries = [] → x.byteToMarkerByte b = some none) ∧
    (b ≤ x.total → x.entries ≠ [] →
      ∃ A m s B, x.entries = A ++ (m, s) :: B ∧ s ≤ b ∧ (∀ e ∈ B, b < e.2) ∧
        x.byteToMarkerByte b = some (some (m, b - s))) := by
  constructor
  · intro hb
    have : x.markerAtByte b = none := by
      unfold Index.markerAtByte
      rcases hb with hb | hb
      · split <;> simp
      · simp [hb]
    simp [Index.byteToMarkerByte, this]
  · intro hb hne
    have hsome : ∃ m, x.markerAtByte b = some m := by
      obtain ⟨e, l, hl⟩ := List.exists_cons_of_ne_nil hne
      have h0 := h.first e (by simp [hl])
      unfold Index.markerAtByte
      rw [if_neg (by simp [hl]), if_neg (by omega)]
      simp only
      have hlb : x.lowerBound b ≤ x.entries.length := by
        unfold Index.lowerBound
        exact (List.takeWhile_prefix _).length_le
      split
      · split
        · simp
        · rename_i e' he' hne'
          have : x.lowerBound b ≠ 0 := by
            intro hz
            rw [hz, hl] at he'
            simp at he'
            subst he'
            have : x.lowerBound b ≥ 1 := by
              unfold Index.lowerBound
              rw [hl, List.takeWhile_cons]
              rw [if_pos (by simp; omega)]
              simp
            omega
          rw [if_neg this]
          rw [List.getElem?_eq_getElem (by omega)]
          simp
      · rename_i hn
        have hge : x.entries.length ≤ x.lowerBound b := by simpa using hn
        have hpos : 0 < x.entries.length := List.length_pos_iff.mpr hne
        rw [if_neg (by omega), List.getElem?_eq_getElem (by omega)]
        simp
    obtain ⟨m, hm⟩ := hsome
    obtain ⟨_, A, s, B, h1, h2, h3⟩ := (C10_marker_at_byte h b m).mp hm
    refine ⟨A, m, s, B, h1, h2, h3, ?_⟩
    have hg : x.entries[A.length]? = some (m, s) := by rw [h1]; simp
    have hp : x.pos m = some A.length := (hc.pos m A.length).mpr (by rw [hg]; rfl)
    simp only [Index.byteToMarkerByte, hm, Index.rangeOf, hp, hg, Option.map_some, Option.bind_some]
    rw [if_neg (by omega)]

/-- The index of any represented document is ordered, so the two theorems above apply to it. -/
theorem C10_document_index_ordered {st : RopeSt} {ps : List Para} (h : Repr st ps) :
    IndexOrdered st.idx := by
  refine ⟨?_, ?_, ?_⟩
  · rw [h.starts]; exact layout_sorted _ _
  · intro e he
    rw [h.starts] at he
    have h1 := layout_lt he
    have : st.idx.total + 1 = span ps := by
      rcases List.eq_nil_or_concat ps with rfl | ⟨L, ⟨m, c⟩, rfl⟩
      · simp [layout] at he
      · have f := Repr.focus (R := []) (by simpa using h)
        rw [f.total]; simp; omega
    omega
  · intro e he
    rw [h.starts] at he
    cases ps with
    | nil => simp [layout] at he
    | cons p ps => obtain ⟨m, c⟩ := p; simp [layout] at he; rw [← he]

example : IndexOrdered (mkSt [(.block 1, ['a', 'b']), (.table 4, [objChar]), (.block 2, [])]).idx :=
  C10_document_index_ordered (mkSt_repr (by decide) (by decide))

end Verif

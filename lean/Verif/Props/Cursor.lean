import Verif.Lemmas.Desk
/-!
C52–C56: cursors.  Unicode segmentation is a parameter with the laws of `Segmenter.Lawful`.
-/
namespace Verif
open Store
variable {s : Store} {d : Document} {f : Nat} {ps : List SPara} {seg : Segmenter}

/-! ### A segmentation for the examples: every character is a cluster, words are runs of letters -/

def plainWords : Nat → Nat → List Char → List (Nat × Nat)
  | a, n, [] => if n = 0 then [] else [(a, n)]
  | a, n, c :: t =>
    if c.isAlphanum then plainWords a (n + 1) t
    else if n = 0 then plainWords (a + 1) 0 t
    else (a, n) :: plainWords (a + n + 1) 0 t

def plainSeg : Segmenter := ⟨fun t => t.map fun c => [c], plainWords 0 0, Char.isAlphanum⟩

theorem plainWords_spec (t : List Char) : ∀ a n, (∀ w ∈ plainWords a n t, a ≤ w.1 ∧ 0 < w.2 ∧ w.1 + w.2 ≤ a + n + t.length) ∧
    (plainWords a n t).Pairwise fun v w => v.1 + v.2 ≤ w.1 := by
  induction t with
  | nil =>
    intro a n
    unfold plainWords
    split
    · simp
    · simp; omega
  | cons c t ih =>
    intro a n
    unfold plainWords
    split
    · obtain ⟨h1, h2⟩ := ih a (n + 1)
      refine ⟨fun w hw => ?_, h2⟩
      have := h1 w hw
      simp only [List.length_cons]; omega
    · split
      · obtain ⟨h1, h2⟩ := ih (a + 1) 0
        refine ⟨fun w hw => ?_, h2⟩
        have := h1 w hw
        simp only [List.length_cons]; omega
      · obtain ⟨h1, h2⟩ := ih (a + n + 1) 0
        refine ⟨fun w hw => ?_, ?_⟩
        · rcases List.mem_cons.mp hw with rfl | hw
          · dsimp only; simp only [List.length_cons]; omega
          · have := h1 w hw
            simp only [List.length_cons]; omega
        · rw [List.pairwise_cons]
          refine ⟨fun w hw => ?_, h2⟩
          have := h1 w hw
          dsimp only; omega

theorem plainSeg_lawful : plainSeg.Lawful := by
  have hf : ∀ t : List Char, (t.map fun c => [c]).flatten = t := by
    intro t; induction t with
    | nil => rfl
    | cons c t ih => simp [ih]
  refine ⟨hf, ?_, ?_, fun t => rfl, ?_, fun t => (plainWords_spec t 0 0).2⟩
  · intro t g hg
    simp only [plainSeg, List.mem_map] at hg
    obtain ⟨c, _, rfl⟩ := hg
    simp
  · intro t a b h
    simp only [plainSeg] at h ⊢
    obtain ⟨x, y, rfl, rfl, rfl⟩ := List.map_eq_append_iff.mp h
    rw [hf, hf]; exact ⟨rfl, rfl⟩
  · intro t w hw
    have := (plainWords_spec t 0 0).1 w hw
    omega

/-! ### C52: the cursor stays in the document -/

/-- `set_position(x, mode)`: the cursor goes to the first place at or after `x`, or to the end of the
document; without `KeepAnchor` the selection is gone, with it the anchor stays. -/
theorem C52_set_position (hl : seg.Lawful) (h : Flat s d f ps) (hm : maxCursor s = some (docLen ps)) (hn : NoCells s f)
    (c : Cursor) (x : Nat) (keep : Bool) :
    FirstStop seg ps (min x (docLen ps)) (s.placeCursor seg c x keep).position ∧
    (s.placeCursor seg c x keep).position ≤ docLen ps ∧
    (keep = false → (s.placeCursor seg c x keep).anchor = (s.placeCursor seg c x keep).position) ∧
    (keep = true → c.anchor ≠ min x (docLen ps) → (s.placeCursor seg c x keep).anchor = c.anchor) ∧
    (keep = true → c.anchor = min x (docLen ps) →
      (s.placeCursor seg c x keep).anchor = (s.placeCursor seg c x keep).position) :=
  Reads.set_position hl h.reads hm (hn.free h) c x

/-- Asking for a place of the cursor leads there. -/
theorem C52_set_position_exact (hl : seg.Lawful) (h : Flat s d f ps) (hm : maxCursor s = some (docLen ps))
    (hn : NoCells s f) (c : Cursor) {x : Nat} (hx : IsStop seg ps x) (keep : Bool) :
    s.placeCursor seg c x keep = ⟨x, if keep then c.anchor else x, false⟩ :=
  Reads.set_position_exact hl h.reads hm (hn.free h) c hx

/-- Whatever the movement, the cursor ends at a place within the document, and the call tells whether
it moved. -/
theorem C52_move_stays (hl : seg.Lawful) (h : Flat s d f ps) (hm : maxCursor s = some (docLen ps)) (hn : NoCells s f)
    (c : Cursor) (op : MoveOp) (keep : Bool) (n : Nat) :
    IsStop seg ps (s.movePosition seg c op keep n).1.position ∧
    (s.movePosition seg c op keep n).1.position ≤ docLen ps ∧
    ((s.movePosition seg c op keep n).2 = true ↔ (s.movePosition seg c op keep n).1.position ≠ c.position) :=
  Reads.move_stays hl h.reads hm (hn.free h) c op n

/-- Selecting stays in the document too; selecting the document selects all of it. -/
theorem C52_select_stays (hl : seg.Lawful) (h : Flat s d f ps) (hm : maxCursor s = some (docLen ps))
    (c : Cursor) (hc : c.position ≤ docLen ps ∧ c.anchor ≤ docLen ps) (op : SelectOp) :
    (s.select seg c op).position ≤ docLen ps ∧ (s.select seg c op).anchor ≤ docLen ps ∧
    s.select seg c .document = ⟨docLen ps, 0, false⟩ :=
  Reads.select_stays hl h.reads hm c hc op

/-- Typing through cursor `i`: the selection is replaced by the text, the cursor is behind it, and
every other cursor follows. -/
theorem C52_type {k : Desk} (h : DeskOk d f k ps) {i : Nat} {c : Cursor} (hc : k.cursors[i]? = some c) (t : List Char)
    (now : Nat) :
    ∃ k', k.step seg now (.insertText i t) = some k' ∧
      DeskOk d f k' (typeAt (min c.position c.anchor) t
        (deleteBetween (min c.position c.anchor) (max c.position c.anchor) ps)) ∧
      k'.cursors = cursorsAfter k.cursors i (min c.position c.anchor)
        (max c.position c.anchor - min c.position c.anchor) t.length := by
  obtain ⟨i1, i2⟩ := h.inside c (List.mem_of_getElem? hc)
  have hle : max c.position c.anchor ≤ docLen ps := by omega
  obtain ⟨e', x', g1, g2, g3, g4, g5⟩ := calm_type c.position c.anchor t now h.idle (h.flat.sees h.sole) hle
  dsimp only at g5
  have hlen := docLen_deleteBetween (lo := min c.position c.anchor) (hi := max c.position c.anchor) h.flat.nonempty
    (by omega) hle
  have hlen2 := docLen_typeAt t (pos := min c.position c.anchor)
    (deleteBetween_nil (lo := min c.position c.anchor) (hi := max c.position c.anchor) h.flat.nonempty) (by omega)
  refine ⟨⟨e', cursorsAfter k.cursors i (min c.position c.anchor)
        (max c.position c.anchor - min c.position c.anchor) t.length⟩, ?_, ⟨?_, g3.sole, g2, ?_⟩, rfl⟩
  · simp only [Desk.step, Desk.withCursor, hc, g1, Option.bind_some, Desk.finish]
    rw [if_neg (by omega), Int.toNat_natCast, Nat.add_sub_cancel_left, adjust_eq]
  · rw [← g5]; exact g3.flat
  · intro a ha
    have := cursorsAfter_le (n := docLen ps) (by omega) h.inside a ha
    omega

/-- Pressing Enter through cursor `i`. -/
theorem C52_enter {k : Desk} (h : DeskOk d f k ps) {i : Nat} {c : Cursor} (hc : k.cursors[i]? = some c) (now : Nat) :
    ∃ k' new, k.step seg now (.insertBlock i) = some k' ∧
      DeskOk d f k' (splitPara (min c.position c.anchor) new
        (deleteBetween (min c.position c.anchor) (max c.position c.anchor) ps)) ∧
      k'.cursors = cursorsAfter k.cursors i (min c.position c.anchor)
        (max c.position c.anchor - min c.position c.anchor) 1 := by
  obtain ⟨i1, i2⟩ := h.inside c (List.mem_of_getElem? hc)
  have hle : max c.position c.anchor ≤ docLen ps := by omega
  obtain ⟨e', x', new, g1, g2, g3, g4, g5⟩ := calm_enter c.position c.anchor now h.idle (h.flat.sees h.sole) hle
  dsimp only at g5
  have hlen := docLen_deleteBetween (lo := min c.position c.anchor) (hi := max c.position c.anchor) h.flat.nonempty
    (by omega) hle
  have hlen2 := docLen_splitPara new (pos := min c.position c.anchor)
    (deleteBetween_nil (lo := min c.position c.anchor) (hi := max c.position c.anchor) h.flat.nonempty) (by omega)
  refine ⟨⟨e', cursorsAfter k.cursors i (min c.position c.anchor)
        (max c.position c.anchor - min c.position c.anchor) 1⟩, new, ?_, ⟨?_, g3.sole, g2, ?_⟩, rfl⟩
  · simp only [Desk.step, Desk.withCursor, hc, g1, Option.bind_some, Desk.finish]
    rw [if_neg (by omega), Int.toNat_natCast, Nat.add_sub_cancel_left, adjust_eq]
  · rw [← g5]; exact g3.flat
  · intro a ha
    have := cursorsAfter_le (n := docLen ps) (by omega) h.inside a ha
    omega

/-- Deleting the selection of cursor `i`, by any of the three calls. -/
theorem C52_delete_selection {k : Desk} (h : DeskOk d f k ps) {i : Nat} {c : Cursor} (hc : k.cursors[i]? = some c)
    (hsel : c.position ≠ c.anchor) (now : Nat) {op : DeskOp}
    (hop : op = .removeSelected i ∨ op = .deleteChar i ∨ op = .deletePrevious i) :
    ∃ k', k.step seg now op = some k' ∧
      DeskOk d f k' (deleteBetween (min c.position c.anchor) (max c.position c.anchor) ps) ∧
      k'.cursors = cursorsAfter k.cursors i (min c.position c.anchor)
        (max c.position c.anchor - min c.position c.anchor) 0 := by
  obtain ⟨i1, i2⟩ := h.inside c (List.mem_of_getElem? hc)
  obtain ⟨k', g1, g2, g3⟩ := doDelete_ok h i c.position c.anchor now (by omega)
  refine ⟨k', ?_, g2, g3⟩
  rcases hop with rfl | rfl | rfl
  · simp [Desk.step, Desk.withCursor, hc, hsel, g1]
  · simp [Desk.step, Desk.withCursor, hc, Desk.deleteChar, hsel, g1]
  · simp [Desk.step, Desk.withCursor, hc, Desk.deletePrevious, hsel, g1]

theorem nextGrapheme_range (hm : maxCursor s = some (docLen ps)) {pos : Nat} (h : pos ≤ docLen ps) :
    pos ≤ s.nextGrapheme seg pos ∧ s.nextGrapheme seg pos ≤ docLen ps := by
  unfold Store.nextGrapheme
  rw [hm, Option.getD_some]
  dsimp only
  repeat' split
  all_goals omega

theorem prevGrapheme_range (pos : Nat) : s.prevGrapheme seg pos ≤ pos := by
  unfold Store.prevGrapheme
  repeat' split
  all_goals (try dsimp only)
  all_goals (repeat' split)
  all_goals omega

theorem set_inside {cs : List Cursor} {i n : Nat} {c : Cursor} (h : ∀ c ∈ cs, c.position ≤ n ∧ c.anchor ≤ n)
    (hc : c.position ≤ n ∧ c.anchor ≤ n) : ∀ a ∈ cs.set i c, a.position ≤ n ∧ a.anchor ≤ n := by
  intro a ha
  rcases List.mem_or_eq_of_mem_set ha with ha | ha
  · exact h a ha
  · rw [ha]; exact hc

/-- One call other than undo, redo and `cursor_at` does not fail and leaves every cursor in the document. -/
theorem C52_step_partial (hl : seg.Lawful) (h0 : d.characterCount = 0) (h1 : d.blockCount = 0) {k : Desk}
    (h : DeskOk d f k ps) {op : DeskOp} (ht : op.Tame) (now : Nat) :
    ∃ k' ps', k.step seg now op = some k' ∧ DeskOk d f k' ps' := by
  have hm := h.max h0 h1
  have hn := noCells_of_sole h.sole
  have same : ∀ cs : List Cursor, (∀ c ∈ cs, c.position ≤ docLen ps ∧ c.anchor ≤ docLen ps) →
      DeskOk d f { k with cursors := cs } ps := fun cs hcs => ⟨h.flat, h.sole, h.idle, hcs⟩
  have absent : ∀ {i : Nat} (g : Cursor → Option Desk), k.cursors[i]? = none →
      ∃ k' ps', k.withCursor i g = some k' ∧ DeskOk d f k' ps' := by
    intro i g hi
    exact ⟨k, ps, by simp [Desk.withCursor, hi], h⟩
  have keepA : ∀ {c : Cursor} (x : Nat) (keep : Bool), c.anchor ≤ docLen ps →
      (k.session.store.placeCursor seg c x keep).position ≤ docLen ps ∧
      (k.session.store.placeCursor seg c x keep).anchor ≤ docLen ps := by
    intro c x keep hc
    obtain ⟨_, g2, g3, g4, g5⟩ := C52_set_position hl h.flat hm hn c x keep
    refine ⟨g2, ?_⟩
    cases keep with
    | false => rw [g3 rfl]; exact g2
    | true =>
      by_cases he : c.anchor = min x (docLen ps)
      · rw [g5 rfl he]; exact g2
      · rw [g4 rfl he]; exact hc
  cases op with
  | undo => exact absurd ht id
  | redo => exact absurd ht id
  | cursorAt x =>
    have hx : x = 0 := ht
    subst hx
    refine ⟨_, ps, rfl, same _ ?_⟩
    intro c hc
    rcases List.mem_append.mp hc with hc | hc
    · exact h.inside c hc
    · simp only [List.mem_singleton] at hc
      subst hc
      have := snapForward_first hl h.flat.reads hm (Nat.zero_le (docLen ps))
      have := stop_le hl this.stop
      unfold Store.cursorAt Store.snapCursor
      dsimp only
      split
      · simp only [if_true]; exact ⟨this, this⟩
      · exact ⟨Nat.zero_le _, Nat.zero_le _⟩
  | clone i =>
    cases hc : k.cursors[i]? with
    | none => exact absent _ hc
    | some c =>
      refine ⟨{ k with cursors := k.cursors ++ [{ c with cellOverride := false }] }, ps,
        by simp [Desk.step, Desk.withCursor, hc], same _ ?_⟩
      intro a ha
      rcases List.mem_append.mp ha with ha | ha
      · exact h.inside a ha
      · simp only [List.mem_singleton] at ha
        subst ha
        exact h.inside c (List.mem_of_getElem? hc)
  | setPosition i x keep =>
    cases hc : k.cursors[i]? with
    | none => exact absent _ hc
    | some c =>
      exact ⟨{ k with cursors := k.cursors.set i (k.session.store.placeCursor seg c x keep) }, ps,
        by simp [Desk.step, Desk.withCursor, hc],
        same _ (set_inside h.inside (keepA x keep (h.inside c (List.mem_of_getElem? hc)).2))⟩
  | move i op keep n =>
    cases hc : k.cursors[i]? with
    | none => exact absent _ hc
    | some c =>
      exact ⟨{ k with cursors := k.cursors.set i (k.session.store.movePosition seg c op keep n).1 }, ps,
        by simp [Desk.step, Desk.withCursor, hc],
        same _ (set_inside h.inside (keepA _ keep (h.inside c (List.mem_of_getElem? hc)).2))⟩
  | select i op =>
    cases hc : k.cursors[i]? with
    | none => exact absent _ hc
    | some c =>
      obtain ⟨g1, g2, _⟩ := C52_select_stays hl h.flat hm c (h.inside c (List.mem_of_getElem? hc)) op
      exact ⟨{ k with cursors := k.cursors.set i (k.session.store.select seg c op) }, ps,
        by simp [Desk.step, Desk.withCursor, hc], same _ (set_inside h.inside ⟨g1, g2⟩)⟩
  | clearSelection i =>
    cases hc : k.cursors[i]? with
    | none => exact absent _ hc
    | some c =>
      have := h.inside c (List.mem_of_getElem? hc)
      exact ⟨{ k with cursors := k.cursors.set i (Store.clearSelection c) }, ps,
        by simp [Desk.step, Desk.withCursor, hc], same _ (set_inside (c := Store.clearSelection c) h.inside ⟨this.1, this.1⟩)⟩
  | insertText i t =>
    cases hc : k.cursors[i]? with
    | none => exact absent _ hc
    | some c => obtain ⟨k', g1, g2, _⟩ := C52_type (seg := seg) h hc t now; exact ⟨k', _, g1, g2⟩
  | insertBlock i =>
    cases hc : k.cursors[i]? with
    | none => exact absent _ hc
    | some c => obtain ⟨k', new, g1, g2, _⟩ := C52_enter (seg := seg) h hc now; exact ⟨k', _, g1, g2⟩
  | removeSelected i =>
    cases hc : k.cursors[i]? with
    | none => exact absent _ hc
    | some c =>
      by_cases hsel : c.position = c.anchor
      · exact ⟨k, ps, by simp [Desk.step, Desk.withCursor, hc, hsel], h⟩
      · obtain ⟨k', g1, g2, _⟩ := C52_delete_selection (seg := seg) h hc hsel now (.inl rfl)
        exact ⟨k', _, g1, g2⟩
  | deleteChar i =>
    cases hc : k.cursors[i]? with
    | none => exact absent _ hc
    | some c =>
      have hin := h.inside c (List.mem_of_getElem? hc)
      by_cases hsel : c.position = c.anchor
      · by_cases hend : c.position ≥ docLen ps
        · refine ⟨k, ps, ?_, h⟩
          simp only [Desk.step, Desk.withCursor, hc, Desk.deleteChar, hm, Option.getD_some]
          rw [if_neg (by simp [hsel]), if_pos hend]
        · have hr := nextGrapheme_range (seg := seg) hm hin.1
          by_cases hs : k.session.store.nextGrapheme seg c.position = c.position
          · refine ⟨k, ps, ?_, h⟩
            simp only [Desk.step, Desk.withCursor, hc, Desk.deleteChar, hm, Option.getD_some]
            rw [if_neg (by simp [hsel]), if_neg hend, if_pos hs]
          · obtain ⟨k', g1, g2, _⟩ := doDelete_ok h i c.position (k.session.store.nextGrapheme seg c.position) now (by omega)
            refine ⟨k', _, ?_, g2⟩
            simp only [Desk.step, Desk.withCursor, hc, Desk.deleteChar, hm, Option.getD_some]
            rw [if_neg (by simp [hsel]), if_neg hend, if_neg hs, g1]
      · obtain ⟨k', g1, g2, _⟩ := C52_delete_selection (seg := seg) h hc hsel now (.inr (.inl rfl))
        exact ⟨k', _, g1, g2⟩
  | deletePrevious i =>
    cases hc : k.cursors[i]? with
    | none => exact absent _ hc
    | some c =>
      have hin := h.inside c (List.mem_of_getElem? hc)
      by_cases hsel : c.position = c.anchor
      · by_cases hend : c.position > 0
        · have hr := prevGrapheme_range (s := k.session.store) (seg := seg) c.position
          by_cases hs : k.session.store.prevGrapheme seg c.position = c.position
          · refine ⟨k, ps, ?_, h⟩
            simp only [Desk.step, Desk.withCursor, hc, Desk.deletePrevious]
            rw [if_neg (by simp [hsel]), if_pos hend, if_pos hs]
          · obtain ⟨k', g1, g2, _⟩ := doDelete_ok h i (k.session.store.prevGrapheme seg c.position) c.position now (by omega)
            refine ⟨k', _, ?_, g2⟩
            simp only [Desk.step, Desk.withCursor, hc, Desk.deletePrevious]
            rw [if_neg (by simp [hsel]), if_pos hend, if_neg hs, g1]
        · refine ⟨k, ps, ?_, h⟩
          simp only [Desk.step, Desk.withCursor, hc, Desk.deletePrevious]
          rw [if_neg (by simp [hsel]), if_neg hend]
      · obtain ⟨k', g1, g2, _⟩ := C52_delete_selection (seg := seg) h hc hsel now (.inr (.inr rfl))
        exact ⟨k', _, g1, g2⟩

/-- Any history of calls on any number of cursors, without undo, redo and `cursor_at`: nothing fails,
and every position and anchor is in the document at the end. -/
theorem C52_history_partial (hl : seg.Lawful) (h0 : d.characterCount = 0) (h1 : d.blockCount = 0)
    (ops : List (Nat × DeskOp)) (ht : ∀ o ∈ ops, o.2.Tame) {k : Desk} (h : DeskOk d f k ps) :
    ∃ k' ps', k.run seg ops = some k' ∧ DeskOk d f k' ps' := by
  induction ops generalizing k ps with
  | nil => exact ⟨k, ps, rfl, h⟩
  | cons o ops ih =>
    obtain ⟨now, op⟩ := o
    obtain ⟨k1, ps1, g1, g2⟩ := C52_step_partial hl h0 h1 h (ht (now, op) (by simp)) now
    obtain ⟨k', ps', g3, g4⟩ := ih (fun o ho => ht o (by simp [ho])) g2
    exact ⟨k', ps', by unfold Desk.run; rw [g1]; exact g3, g4⟩

/-- The hypotheses are met: a document of two paragraphs, two cursors, and a history that types, moves and
deletes. -/
example : ∃ (s : Store) (k' : Desk) (ps' : List SPara),
    DeskOk { id := 1, frames := [2] } 2 ⟨⟨(Mgr.new.create).2, s, some 1⟩, [⟨0, 0, false⟩, ⟨5, 1, false⟩]⟩
      [plainPara 2 ['a', 'b'], plainPara 3 ['c', 'd']] ∧
    Desk.run plainSeg ⟨⟨(Mgr.new.create).2, s, some 1⟩, [⟨0, 0, false⟩, ⟨5, 1, false⟩]⟩
      [(0, .insertText 0 ['a', 'b']), (1, .insertBlock 1), (2, .clone 0), (3, .move 0 .start true 1),
       (4, .deleteChar 0)] = some k' ∧
    DeskOk { id := 1, frames := [2] } 2 k' ps' := by
  obtain ⟨s, e2, e3⟩ := sample_flat
  have hk : DeskOk { id := 1, frames := [2] } 2 ⟨⟨(Mgr.new.create).2, s, some 1⟩, [⟨0, 0, false⟩, ⟨5, 1, false⟩]⟩
      [plainPara 2 ['a', 'b'], plainPara 3 ['c', 'd']] :=
    ⟨e2, e3, ⟨rfl, rfl, rfl, .inl rfl⟩, by
      show ∀ c ∈ ([⟨0, 0, false⟩, ⟨5, 1, false⟩] : List Cursor), _ ∧ _
      simp [docLen, plainPara, styled]⟩
  obtain ⟨k', ps', g1, g2⟩ := C52_history_partial plainSeg_lawful rfl rfl
    [(0, .insertText 0 ['a', 'b']), (1, .insertBlock 1), (2, .clone 0), (3, .move 0 .start true 1),
       (4, .deleteChar 0)] (by simp [DeskOp.Tame]) hk
  exact ⟨s, k', ps', hk, g1, g2⟩

/-- In a document that was never loaded the paragraph count is one short (`C47_new_document_fails`), so that
after typing "a" and Enter the end of the document cannot be reached: `set_position(2)` goes to 1. -/
theorem C52_new_document_fails : ∃ s : Store, Store.newStore = some s ∧
    (Desk.run plainSeg ⟨⟨(Mgr.new.create).2, s, some 1⟩, [⟨0, 0, false⟩]⟩
      [(0, .insertText 0 ['a']), (1, .insertBlock 0), (2, .setPosition 0 2 false)]).map (fun k =>
        (k.cursors, k.session.store.exportPlainText)) =
      some ([⟨1, 1, false⟩], some ['a', '\n']) := by
  refine ⟨_, rfl, ?_⟩
  decide +kernel

/-- Undo leaves the cursors where they are: after typing "abc" and undoing it the cursor is at 3 in an empty
document. -/
theorem C52_undo_fails : ∃ s : Store, Store.newStore = some s ∧
    (Desk.run plainSeg ⟨⟨(Mgr.new.create).2, s, some 1⟩, [⟨0, 0, false⟩]⟩
      [(0, .insertText 0 ['a', 'b', 'c']), (1, .undo)]).map (fun k =>
        (k.cursors, maxCursor k.session.store, k.session.store.exportPlainText)) =
      some ([⟨3, 3, false⟩], some 0, some []) := by
  refine ⟨_, rfl, ?_⟩
  decide +kernel

/-- `cursor_at` does not look at the length of the document. -/
theorem C52_cursor_at_fails : ∃ s : Store, Store.newStore = some s ∧
    s.cursorAt plainSeg 7 = ⟨7, 7, false⟩ ∧ maxCursor s = some 0 := by
  refine ⟨_, rfl, ?_, ?_⟩ <;> decide +kernel

end Verif

import Verif.Lemmas.Cursor
/- Cursor movement in any document that can be read by position. -/
namespace Verif
open Store
variable {s : Store} {d : Document} {f : Nat} {ps : List SPara} {seg : Segmenter}

/-- No table stops a selection. -/
def Free (s : Store) (keep : Bool) : Prop := keep = true → ∀ a x, s.keepOutside a x = x

theorem free_false : Free s false := nofun

theorem NoCells.free (hn : NoCells s f) (h : Flat s d f ps) {keep : Bool} : Free s keep := fun _ => keepOutside_flat h hn

theorem Reads.set_position (hl : seg.Lawful) (h : Reads s ps) (hm : maxCursor s = some (docLen ps)) {keep : Bool} (hn : Free s keep)
    (c : Cursor) (x : Nat) :
    FirstStop seg ps (min x (docLen ps)) (s.placeCursor seg c x keep).position ∧
    (s.placeCursor seg c x keep).position ≤ docLen ps ∧
    (keep = false → (s.placeCursor seg c x keep).anchor = (s.placeCursor seg c x keep).position) ∧
    (keep = true → c.anchor ≠ min x (docLen ps) → (s.placeCursor seg c x keep).anchor = c.anchor) ∧
    (keep = true → c.anchor = min x (docLen ps) →
      (s.placeCursor seg c x keep).anchor = (s.placeCursor seg c x keep).position) := by
  obtain ⟨q, h1, h2⟩ := placeCursor_spec hl h hm c x fun hk => hn hk _ _
  rw [h2]
  refine ⟨h1, stop_le hl h1.stop, ?_, ?_, ?_⟩
  · rintro rfl; rfl
  · rintro rfl hne; simp [hne]
  · rintro rfl he; simp [he]

theorem Reads.set_position_exact (hl : seg.Lawful) (h : Reads s ps) (hm : maxCursor s = some (docLen ps))
    {keep : Bool} (hn : Free s keep) (c : Cursor) {x : Nat} (hx : IsStop seg ps x) :
    s.placeCursor seg c x keep = ⟨x, if keep then c.anchor else x, false⟩ := by
  obtain ⟨q, h1, h2⟩ := placeCursor_spec hl h hm c x fun hk => hn hk _ _
  have hle := stop_le hl hx
  rw [Nat.min_eq_left hle] at h1 h2
  have : q = x := firstStop_unique h1 (firstStop_self hx)
  subst this
  rw [h2]
  cases keep with
  | false => rfl
  | true => simp only [if_true]; split <;> simp_all

theorem Reads.move_stays (hl : seg.Lawful) (h : Reads s ps) (hm : maxCursor s = some (docLen ps)) {keep : Bool} (hn : Free s keep)
    (c : Cursor) (op : MoveOp) (n : Nat) :
    IsStop seg ps (s.movePosition seg c op keep n).1.position ∧
    (s.movePosition seg c op keep n).1.position ≤ docLen ps ∧
    ((s.movePosition seg c op keep n).2 = true ↔ (s.movePosition seg c op keep n).1.position ≠ c.position) := by
  obtain ⟨h1, h2, _⟩ := Reads.set_position hl h hm hn c (s.resolveMove seg c.position n op)
  exact ⟨h1.stop, h2, by simp [Store.movePosition]⟩

theorem Reads.select_stays (hl : seg.Lawful) (h : Reads s ps) (hm : maxCursor s = some (docLen ps))
    (c : Cursor) (hc : c.position ≤ docLen ps ∧ c.anchor ≤ docLen ps) (op : SelectOp) :
    (s.select seg c op).position ≤ docLen ps ∧ (s.select seg c op).anchor ≤ docLen ps ∧
    s.select seg c .document = ⟨docLen ps, 0, false⟩ := by
  have hd : s.select seg c .document = ⟨docLen ps, 0, false⟩ := by simp [Store.select, hm]
  have hb : ∃ n p, ps[n]? = some p ∧ s.blockAt c.position = some (infoOf ps n p) := blockAt_mem h c.position
  obtain ⟨n, p, hp, e⟩ := hb
  have hle := paraEnd_le hp
  have key : ∀ op : SelectOp, (s.select seg c op).position ≤ docLen ps ∧ (s.select seg c op).anchor ≤ docLen ps := by
    intro op
    cases op with
    | document => rw [hd]; simp
    | blockUnderCursor => simp only [Store.select, e, infoOf, Int.toNat_natCast]; omega
    | lineUnderCursor => simp only [Store.select, e, infoOf, Int.toNat_natCast]; omega
    | wordUnderCursor =>
      simp only [Store.select]
      rcases wordBounds_cases hl h c.position with hw | ⟨m, q, w, hq, hw1, hw⟩
      · rw [hw]; exact ⟨hc.1, hc.1⟩
      · rw [hw]
        have h1 := hl.inside q.text w hw1
        rw [text_length] at h1
        have := paraEnd_le hq
        dsimp only; omega
  exact ⟨(key op).1, (key op).2, hd⟩

theorem nextGrapheme_steps (hl : seg.Lawful) (h : Reads s ps) (hm : maxCursor s = some (docLen ps)) (n : Nat) {a : Nat}
    (ha : IsStop seg ps a) :
    StepsTo (NextStop seg ps) n a (repeatMove (s.nextGrapheme seg) n a) ∧
      IsStop seg ps (repeatMove (s.nextGrapheme seg) n a) := by
  induction n generalizing a with
  | zero => exact ⟨.zero, ha⟩
  | succ n ih =>
    unfold repeatMove
    by_cases hlt : a < docLen ps
    · have hn := nextGrapheme_next hl h hm ha hlt
      rw [if_neg (by have := hn.after; omega)]
      obtain ⟨g1, g2⟩ := ih hn.stop
      exact ⟨.step hn g1, g2⟩
    · have hle := stop_le hl ha
      have : a = docLen ps := by omega
      subst this
      rw [if_pos (nextGrapheme_end hm)]
      refine ⟨.stuck fun c hc => ?_, ha⟩
      have := hc.after
      have := stop_le hl hc.stop
      omega

theorem prevGrapheme_steps (hl : seg.Lawful) (h : Reads s ps) (n : Nat) {a : Nat}
    (ha : IsStop seg ps a) :
    StepsTo (PrevStop seg ps) n a (repeatMove (s.prevGrapheme seg) n a) ∧
      IsStop seg ps (repeatMove (s.prevGrapheme seg) n a) := by
  induction n generalizing a with
  | zero => exact ⟨.zero, ha⟩
  | succ n ih =>
    unfold repeatMove
    by_cases hlt : 0 < a
    · have hn := prevGrapheme_prev hl h ha hlt
      rw [if_neg (by have := hn.before; omega)]
      obtain ⟨g1, g2⟩ := ih hn.stop
      exact ⟨.step hn g1, g2⟩
    · have : a = 0 := by omega
      subst this
      rw [if_pos (by simp [Store.prevGrapheme])]
      refine ⟨.stuck fun c hc => ?_, ha⟩
      have := hc.before
      omega

theorem Reads.next_character (hl : seg.Lawful) (h : Reads s ps) (hm : maxCursor s = some (docLen ps)) {keep : Bool} (hn : Free s keep)
    {c : Cursor} (hc : IsStop seg ps c.position) {op : MoveOp} (hop : op = .nextCharacter ∨ op = .right)
    (n : Nat) :
    ∃ q, StepsTo (NextStop seg ps) n c.position q ∧
      s.movePosition seg c op keep n = (⟨q, if keep then c.anchor else q, false⟩, decide (q ≠ c.position)) := by
  obtain ⟨g1, g2⟩ := nextGrapheme_steps hl h hm n hc
  refine ⟨_, g1, ?_⟩
  have hr : s.resolveMove seg c.position n op = repeatMove (s.nextGrapheme seg) n c.position := by
    rcases hop with rfl | rfl <;> rfl
  simp only [Store.movePosition, hr, Reads.set_position_exact hl h hm hn c g2]

theorem Reads.previous_character (hl : seg.Lawful) (h : Reads s ps) (hm : maxCursor s = some (docLen ps))
    {keep : Bool} (hn : Free s keep) {c : Cursor} (hc : IsStop seg ps c.position) {op : MoveOp}
    (hop : op = .previousCharacter ∨ op = .left) (n : Nat) :
    ∃ q, StepsTo (PrevStop seg ps) n c.position q ∧
      s.movePosition seg c op keep n = (⟨q, if keep then c.anchor else q, false⟩, decide (q ≠ c.position)) := by
  obtain ⟨g1, g2⟩ := prevGrapheme_steps hl h n hc
  refine ⟨_, g1, ?_⟩
  have hr : s.resolveMove seg c.position n op = repeatMove (s.prevGrapheme seg) n c.position := by
    rcases hop with rfl | rfl <;> rfl
  simp only [Store.movePosition, hr, Reads.set_position_exact hl h hm hn c g2]

theorem steps_one {R : Nat → Nat → Prop} {a b q : Nat} (hR : R a b) (hu : ∀ x y, R a x → R a y → x = y)
    (h : StepsTo R 1 a q) : q = b := by
  cases h with
  | stuck h => exact absurd hR (h b)
  | step h1 h2 => cases h2 with
    | zero => exact hu _ _ h1 hR
    | stuck _ => exact hu _ _ h1 hR

theorem Reads.there_and_back (hl : seg.Lawful) (h : Reads s ps) (hm : maxCursor s = some (docLen ps))
    {c : Cursor} (hc : IsStop seg ps c.position) :
    (c.position < docLen ps →
      (s.movePosition seg (s.movePosition seg c .nextCharacter false 1).1 .previousCharacter false 1).1.position =
        c.position) ∧
    (0 < c.position →
      (s.movePosition seg (s.movePosition seg c .previousCharacter false 1).1 .nextCharacter false 1).1.position =
        c.position) := by
  have pu : ∀ {a x y : Nat}, PrevStop seg ps a x → PrevStop seg ps a y → x = y := by
    intro a x y h1 h2
    have := h1.last y h2.stop h2.before
    have := h2.last x h1.stop h1.before
    omega
  constructor
  · intro hlt
    obtain ⟨b, hb⟩ := nextStop_exists hl hc hlt
    obtain ⟨q, g1, g2⟩ := Reads.next_character hl h hm free_false hc (.inl rfl) 1
    have := steps_one hb (fun x y h1 h2 => nextStop_unique h1 h2) g1
    subst this
    rw [g2]
    obtain ⟨q', g3, g4⟩ := Reads.previous_character hl h hm free_false (c := ⟨q, q, false⟩) hb.stop (.inl rfl) 1
    dsimp only at g3 g4
    simp only [Bool.false_eq_true, if_false]
    rw [g4]
    exact steps_one (prevStop_of_next hc hb) (fun x y h1 h2 => pu h1 h2) g3
  · intro hlt
    have hb := prevGrapheme_prev hl h hc hlt
    obtain ⟨q, g1, g2⟩ := Reads.previous_character hl h hm free_false hc (.inl rfl) 1
    have := steps_one hb (fun x y h1 h2 => pu h1 h2) g1
    subst this
    rw [g2]
    obtain ⟨q', g3, g4⟩ := Reads.next_character hl h hm free_false (c := ⟨prevGrapheme seg s c.position, prevGrapheme seg s c.position, false⟩) hb.stop (.inl rfl) 1
    dsimp only at g3 g4
    simp only [Bool.false_eq_true, if_false]
    rw [g4]
    exact steps_one (nextStop_of_prev hc hb) (fun x y h1 h2 => nextStop_unique h1 h2) g3

theorem InParagraph.at {pos n k : Nat} {p : SPara} (h : Reads s ps) (hi : InParagraph ps pos n k p) :
    s.blockAt pos = some (infoOf ps n p) := by
  obtain ⟨h1, rfl, h2, h3⟩ := hi
  exact blockAt_inside h h1 h2 h3

theorem Reads.paragraph (hl : seg.Lawful) (h : Reads s ps) (hm : maxCursor s = some (docLen ps))
    {keep : Bool} (hn : Free s keep) {c : Cursor} {n k : Nat} {p : SPara} (hi : InParagraph ps c.position n k p)
    (count : Nat) :
    (s.movePosition seg c .startOfBlock keep count).1 =
      ⟨paraStart ps n, if keep then c.anchor else paraStart ps n, false⟩ ∧
    (s.movePosition seg c .endOfBlock keep count).1 =
      ⟨paraStart ps n + p.chars.length, if keep then c.anchor else paraStart ps n + p.chars.length, false⟩ ∧
    s.select seg c .blockUnderCursor = ⟨paraStart ps n + p.chars.length, paraStart ps n, false⟩ ∧
    s.atBlockStart c = decide (k = 0) ∧ s.atBlockEnd c = decide (k = p.chars.length) ∧
    s.blockNumber c = n ∧ s.positionInBlock c = k := by
  have hb := hi.at h
  obtain ⟨h1, h2, h3, _⟩ := hi
  refine ⟨?_, ?_, ?_, ?_, ?_, ?_, ?_⟩
  · simp only [Store.movePosition, Store.resolveMove, hb, infoOf, Int.toNat_natCast]
    exact Reads.set_position_exact hl h hm hn c (stop_start hl h1)
  · simp only [Store.movePosition, Store.resolveMove, hb, infoOf, Int.toNat_natCast]
    exact Reads.set_position_exact hl h hm hn c (stop_end hl h1)
  · simp only [Store.select, hb, infoOf, Int.toNat_natCast]
  · simp only [Store.atBlockStart, hb, infoOf, Int.toNat_natCast, decide_eq_decide]; omega
  · simp only [Store.atBlockEnd, hb, infoOf, Int.toNat_natCast, decide_eq_decide]; omega
  · simp [Store.blockNumber, hb, infoOf]
  · simp only [Store.positionInBlock, hb, Option.map_some, Option.getD_some, infoOf, Int.toNat_natCast]; omega

theorem Reads.next_paragraph (hl : seg.Lawful) (h : Reads s ps) (hm : maxCursor s = some (docLen ps))
    {keep : Bool} (hn : Free s keep) {c : Cursor} {n k : Nat} {p : SPara} (hi : InParagraph ps c.position n k p)
    (count : Nat) {op : MoveOp} (hop : op = .nextBlock ∨ op = .down) :
    (s.movePosition seg c op keep count).1.position =
      (if n + 1 < ps.length then paraStart ps (n + 1) else docLen ps) := by
  have hb := hi.at h
  obtain ⟨h1, h2, h3, _⟩ := hi
  have hr : s.resolveMove seg c.position count op = paraStart ps n + p.chars.length + 1 := by
    have : s.resolveMove seg c.position count op = s.nextBlockPos c.position := by rcases hop with rfl | rfl <;> rfl
    rw [this]
    simp only [Store.nextBlockPos, hb, infoOf, Int.toNat_natCast]
  simp only [Store.movePosition, hr]
  by_cases hlast : n + 1 < ps.length
  · rw [if_pos hlast]
    have := Reads.set_position_exact hl h hm hn c (stop_start hl (List.getElem?_eq_getElem hlast))
    rw [paraStart_succ h1] at this ⊢
    rw [this]
  · rw [if_neg hlast]
    have he := paraEnd_last h1 (by omega)
    obtain ⟨q, g1, g2⟩ := placeCursor_spec hl h hm c (paraStart ps n + p.chars.length + 1) fun hk => hn hk _ _
    rw [Nat.min_eq_right (by omega)] at g1
    rw [g2]
    have hstop := stop_end (seg := seg) hl h1
    rw [he] at hstop
    exact firstStop_unique g1 (firstStop_self hstop)

theorem Reads.previous_paragraph (hl : seg.Lawful) (h : Reads s ps) (hm : maxCursor s = some (docLen ps))
    {keep : Bool} (hn : Free s keep) {c : Cursor} {n k : Nat} {p : SPara} (hi : InParagraph ps c.position n k p)
    (count : Nat) {op : MoveOp} (hop : op = .previousBlock ∨ op = .up)
    (hne : ∀ m, n = m + 2 → ∃ q, (ps[m]? = some q ∨ ps[m + 1]? = some q) ∧ q.chars ≠ []) :
    (s.movePosition seg c op keep count).1.position = paraStart ps (n - 1) := by
  have hb := hi.at h
  obtain ⟨h1, h2, h3, _⟩ := hi
  have hr : s.resolveMove seg c.position count op = s.previousBlock c.position := by rcases hop with rfl | rfl <;> rfl
  have key : s.previousBlock c.position = paraStart ps (n - 1) := by
    unfold Store.previousBlock
    simp only [hb, infoOf, Int.toNat_natCast]
    cases n with
    | zero => rw [if_neg (by simp [paraStart])]; simp [paraStart]
    | succ m =>
      have hml : m < ps.length := by have := (List.getElem?_eq_some_iff.mp h1).1; omega
      have hq := List.getElem?_eq_getElem hml
      generalize ps[m] = q at hq
      rw [Nat.add_sub_cancel, paraStart_succ hq]
      by_cases hqe : q.chars.length = 0
      · cases m with
        | zero => rw [if_neg (by simp [paraStart, hqe])]; simp [paraStart]
        | succ m =>
          have hml2 : m < ps.length := by omega
          have hr2 := List.getElem?_eq_getElem hml2
          generalize ps[m] = r at hr2
          have hre : r.chars ≠ [] := by
            obtain ⟨x, hx, hx2⟩ := hne m rfl
            rcases hx with hx | hx
            · rw [hr2] at hx; cases hx; exact hx2
            · rw [hq] at hx; cases hx
              exact absurd (List.length_eq_zero_iff.mp hqe) hx2
          have hrp := List.length_pos_iff.mpr hre
          have hs := paraStart_succ hr2
          rw [if_pos (by omega), show paraStart ps (m + 1) + q.chars.length + 1 - 2 = paraStart ps m + r.chars.length by omega,
            blockAt_end h hr2 hq hre]
          simp [infoOf]
      · rw [if_pos (by omega), show paraStart ps m + q.chars.length + 1 - 2 = paraStart ps m + (q.chars.length - 1) by omega,
          blockAt_inside h hq (by omega) (.inl (by omega))]
        simp [infoOf]
  have hml : n - 1 < ps.length := by have := (List.getElem?_eq_some_iff.mp h1).1; omega
  simp only [Store.movePosition, hr, key]
  rw [Reads.set_position_exact hl h hm hn c (stop_start hl (List.getElem?_eq_getElem hml))]

theorem WordAt.bounds (hl : seg.Lawful) (h : Reads s ps) {pos a b : Nat} (hw : WordAt seg ps pos a b) :
    s.wordBounds seg pos = (a, b) := by
  obtain ⟨n, p, w, hp, hw, rfl, rfl, h1, h2⟩ := hw
  obtain ⟨k, rfl⟩ : ∃ k, pos = paraStart ps n + k := ⟨pos - paraStart ps n, by omega⟩
  exact wordBounds_in hl h hp hw (by omega) (by omega)

theorem InParagraph.bounds_end (hl : seg.Lawful) (h : Reads s ps) {pos n k : Nat} {p : SPara}
    (hi : InParagraph ps pos n k p) (hout : ∀ w ∈ seg.words p.text, ¬ (w.1 ≤ k ∧ k < w.1 + w.2)) :
    (s.wordBounds seg pos).2 = pos := by
  obtain ⟨h1, rfl, h2, h3⟩ := hi
  rw [wordBounds_out hl h h1 h2 h3 hout]
  cases hg : (seg.words p.text).getLast? with
  | none => rfl
  | some w =>
    dsimp only
    by_cases hk : k = w.1 + w.2
    · rw [if_pos hk]; dsimp only; omega
    · rw [if_neg hk]

theorem Reads.select_word (hl : seg.Lawful) (h : Reads s ps) {c : Cursor} {a b : Nat}
    (hw : WordAt seg ps c.position a b) : s.select seg c .wordUnderCursor = ⟨b, a, false⟩ := by
  simp only [Store.select, hw.bounds hl h]

theorem Reads.select_nothing (hl : seg.Lawful) (h : Reads s ps) {c : Cursor} {n k : Nat} {p : SPara}
    (hi : InParagraph ps c.position n k p) (hout : ∀ w ∈ seg.words p.text, k < w.1 ∨ w.1 + w.2 < k) :
    s.select seg c .wordUnderCursor = ⟨c.position, c.position, false⟩ := by
  obtain ⟨h1, h2, h3, h4⟩ := hi
  have : s.wordBounds seg c.position = (c.position, c.position) := by
    rw [h2, wordBounds_out hl h h1 h3 h4 (fun w hw => by have := hout w hw; omega)]
    cases hg : (seg.words p.text).getLast? with
    | none => rfl
    | some w =>
      dsimp only
      have := hout w (List.mem_of_getLast? hg)
      rw [if_neg (by omega)]
  simp only [Store.select, this]

theorem Reads.next_word_inside (hl : seg.Lawful) (h : Reads s ps) (hm : maxCursor s = some (docLen ps))
    {keep : Bool} (hn : Free s keep) {c : Cursor} {a b : Nat} (hw : WordAt seg ps c.position a b) {op : MoveOp}
    (hop : op = .nextWord ∨ op = .endOfWord ∨ op = .wordRight) (count : Nat) :
    FirstStop seg ps b (s.movePosition seg c op keep count).1.position := by
  have hb := hw.bounds hl h
  obtain ⟨n, p, w, hp, hw1, e1, e2, h1, h2⟩ := hw
  have hr : s.resolveMove seg c.position count op = b := by
    have : s.resolveMove seg c.position count op = s.nextWord seg c.position := by
      rcases hop with rfl | rfl | rfl <;> rfl
    rw [this]
    unfold Store.nextWord
    rw [hb]
    dsimp only
    rw [if_neg (by omega)]
  obtain ⟨q, g1, g2⟩ := placeCursor_spec hl h hm c b fun hk => hn hk _ _
  have := (hl.inside p.text w hw1).2
  rw [text_length] at this
  have := paraEnd_le hp
  rw [Nat.min_eq_left (by omega)] at g1
  simp only [Store.movePosition, hr, g2]
  exact g1

theorem Reads.next_word_outside (hl : seg.Lawful) (h : Reads s ps) (hm : maxCursor s = some (docLen ps))
    {keep : Bool} (hn : Free s keep) {c : Cursor} {n k : Nat} {p : SPara} (hi : InParagraph ps c.position n k p)
    (hout : ∀ w ∈ seg.words p.text, ¬ (w.1 ≤ k ∧ k < w.1 + w.2)) {j a b : Nat} (hj : j < 64)
    (hfirst : ((docText ps).drop c.position).findIdx? (fun x => seg.alphanumeric x || x == '_') = some j)
    (hw : WordAt seg ps (c.position + j) a b) {op : MoveOp}
    (hop : op = .nextWord ∨ op = .endOfWord ∨ op = .wordRight) (count : Nat) :
    FirstStop seg ps b (s.movePosition seg c op keep count).1.position := by
  have hb := hw.bounds hl h
  have he := hi.bounds_end hl h hout
  obtain ⟨h1, h2, h3, h4⟩ := hi
  have hle := paraEnd_le h1
  obtain ⟨g1, g2⟩ := (List.findIdx?_eq_some_iff_findIdx_eq).mp hfirst
  rw [List.length_drop, docText_length] at g1
  have hr : s.resolveMove seg c.position count op = b := by
    have : s.resolveMove seg c.position count op = s.nextWord seg c.position := by
      rcases hop with rfl | rfl | rfl <;> rfl
    rw [this]
    unfold Store.nextWord
    dsimp only
    rw [if_pos he, hm, Option.getD_some, if_neg (by omega)]
    obtain ⟨r, r1, r2, _⟩ := h.textAt c.position (min (docLen ps - c.position) 64)
      (by rw [docText_length]; omega)
    rw [r1, Option.bind_some, r2]
    have : (((docText ps).drop c.position).take (min (docLen ps - c.position) 64)).findIdx?
        (fun x => seg.alphanumeric x || x == '_') = some j := by
      rw [List.findIdx?_take, hfirst]
      simp only [Option.guard, Option.bind_some]
      rw [if_pos (by simp; omega)]
    rw [this]
    dsimp only
    rw [hb]
  obtain ⟨n', p', w, hp', hw1, e1, e2, k1, k2⟩ := hw
  obtain ⟨q, g1, g2⟩ := placeCursor_spec hl h hm c b fun hk => hn hk _ _
  have := (hl.inside p'.text w hw1).2
  rw [text_length] at this
  have := paraEnd_le hp'
  rw [Nat.min_eq_left (by omega)] at g1
  simp only [Store.movePosition, hr, g2]
  exact g1

theorem Reads.previous_word_inside (hl : seg.Lawful) (h : Reads s ps) (hm : maxCursor s = some (docLen ps))
    {keep : Bool} (hn : Free s keep) {c : Cursor} {a b : Nat} (hw : WordAt seg ps c.position a b) (ha : a < c.position) {op : MoveOp}
    (hop : op = .previousWord ∨ op = .startOfWord ∨ op = .wordLeft) (count : Nat) :
    FirstStop seg ps a (s.movePosition seg c op keep count).1.position := by
  have hb := hw.bounds hl h
  obtain ⟨n, p, w, hp, hw1, e1, e2, h1, h2⟩ := hw
  have hr : s.resolveMove seg c.position count op = a := by
    have : s.resolveMove seg c.position count op = s.prevWord seg c.position := by
      rcases hop with rfl | rfl | rfl <;> rfl
    rw [this]
    unfold Store.prevWord
    rw [hb]
    dsimp only
    rw [if_pos ha]
  obtain ⟨q, g1, g2⟩ := placeCursor_spec hl h hm c a fun hk => hn hk _ _
  have := (hl.inside p.text w hw1).2
  rw [text_length] at this
  have := paraEnd_le hp
  rw [Nat.min_eq_left (by omega)] at g1
  simp only [Store.movePosition, hr, g2]
  exact g1

theorem LastWordBefore.down {p : SPara} {k j : Nat} {w : Nat × Nat} (h : LastWordBefore seg p k w) (h1 : j ≤ k)
    (h2 : w.1 + w.2 ≤ j) : LastWordBefore seg p j w := ⟨h.1, h2, fun v hv hk => h.2.2 v hv (by omega)⟩

theorem LastWordBefore.out (hl : seg.Lawful) {p : SPara} {k : Nat} {w : Nat × Nat} (h : LastWordBefore seg p k w)
    {v : Nat × Nat} (hv : v ∈ seg.words p.text) (h1 : v.1 < k) (h2 : k ≤ v.1 + v.2) : v = w := by
  have hle := h.2.2 v hv h1
  have := hl.inside _ _ hv
  have := hl.inside _ _ h.1
  have := h.2.1
  exact wordAt_unique (k := w.1) hl hv h.1 (by omega) (by omega)

theorem LastWordBefore.bounds (hl : seg.Lawful) (h : Reads s ps) {n k : Nat} {p : SPara} {w : Nat × Nat}
    (hw : LastWordBefore seg p k w) (h1 : ps[n]? = some p) (h2 : k ≤ p.chars.length)
    (h3 : k < p.chars.length ∨ p.chars = [] ∨ ps[n + 1]? = none)
    (h4 : ∀ v ∈ seg.words p.text, v.1 ≠ k) :
    s.wordBounds seg (paraStart ps n + k) = (paraStart ps n + k, paraStart ps n + k) ∨
    (k = w.1 + w.2 ∧ s.wordBounds seg (paraStart ps n + k) = (paraStart ps n + w.1, paraStart ps n + w.1 + w.2)) := by
  rw [wordBounds_out hl h h1 h2 h3 (fun v hv hk => by
    have := h4 v hv
    have := hw.out hl hv (by omega) (by omega)
    subst this
    have := hw.2.1
    omega)]
  cases hg : (seg.words p.text).getLast? with
  | none => exact .inl rfl
  | some v =>
    dsimp only
    have hv := List.mem_of_getLast? hg
    by_cases hk : k = v.1 + v.2
    · have := (hl.inside _ _ hv).1
      have := hw.out hl hv (by omega) (by omega)
      subst this
      right
      rw [if_pos hk]; exact ⟨hk, rfl⟩
    · rw [if_neg hk]; exact .inl rfl

theorem prevWordScan_last (hl : seg.Lawful) (h : Reads s ps) {n : Nat} {p : SPara} {w : Nat × Nat}
    (h1 : ps[n]? = some p) (m : Nat) : ∀ {k : Nat}, LastWordBefore seg p (k + 1) w → k = w.1 + w.2 - 1 + m →
    k < p.chars.length →
    s.prevWordScan seg (paraStart ps n + k) = paraStart ps n + w.1 := by
  induction m with
  | zero =>
    intro k hw hk hlt
    have hpos := (hl.inside _ _ hw.1).1
    have hb := wordBounds_in hl h h1 hw.1 (k := k) (by omega) (by omega)
    cases hpk : paraStart ps n + k with
    | zero =>
      rw [hpk] at hb
      unfold Store.prevWordScan
      rw [hb]; dsimp only; rw [if_pos (by omega)]
    | succ x =>
      rw [hpk] at hb
      unfold Store.prevWordScan
      rw [hb]; dsimp only; rw [if_pos (by omega)]
  | succ m ih =>
    intro k hw hk hlt
    have hpos := (hl.inside _ _ hw.1).1
    obtain ⟨k, rfl⟩ : ∃ j, k = j + 1 := ⟨k - 1, by omega⟩
    have hw' : LastWordBefore seg p (k + 1) w := hw.down (by omega) (by omega)
    have hb := hw'.bounds hl h h1 (by omega) (.inl hlt) (by
      intro v hv e
      have := hw.2.2 v hv (by omega)
      omega)
    rw [← Nat.add_assoc] at hb ⊢
    unfold Store.prevWordScan
    rcases hb with hb | ⟨_, hb⟩
    · rw [hb]; dsimp only
      rw [if_neg (by omega)]
      exact ih hw' (by omega) (by omega)
    · rw [hb]; dsimp only
      rw [if_pos (by omega)]

theorem Reads.previous_word_outside (hl : seg.Lawful) (h : Reads s ps) (hm : maxCursor s = some (docLen ps))
    {keep : Bool} (hn : Free s keep) {c : Cursor} {n k : Nat} {p : SPara} (hi : InParagraph ps c.position n k p) {w : Nat × Nat}
    (hw : LastWordBefore seg p k w) {op : MoveOp}
    (hop : op = .previousWord ∨ op = .startOfWord ∨ op = .wordLeft) (count : Nat) :
    FirstStop seg ps (paraStart ps n + w.1) (s.movePosition seg c op keep count).1.position := by
  obtain ⟨h1, h2, h3, h4⟩ := hi
  have hpos := (hl.inside _ _ hw.1).1
  have hwk := hw.2.1
  have hr : s.resolveMove seg c.position count op = paraStart ps n + w.1 := by
    have : s.resolveMove seg c.position count op = s.prevWord seg c.position := by
      rcases hop with rfl | rfl | rfl <;> rfl
    rw [this]
    unfold Store.prevWord
    have hscan : s.prevWordScan seg (c.position - 1) = paraStart ps n + w.1 := by
      rw [h2, show paraStart ps n + k - 1 = paraStart ps n + (k - 1) by omega]
      exact prevWordScan_last hl h h1 (k - (w.1 + w.2)) (k := k - 1)
        (by rw [show k - 1 + 1 = k by omega]; exact hw) (by omega) (by omega)
    by_cases hs : ∃ v ∈ seg.words p.text, v.1 = k
    · obtain ⟨v, hv, rfl⟩ := hs
      have := (hl.inside _ _ hv).1
      rw [h2, wordBounds_in hl h h1 hv (k := v.1) (by omega) (by omega)]
      dsimp only
      rw [← h2, if_neg (by omega), if_pos (by omega), hscan]
    · rcases hw.bounds hl h h1 h3 h4 (fun v hv e => hs ⟨v, hv, e⟩) with hb | ⟨_, hb⟩
      · rw [← h2] at hb
        rw [hb]
        dsimp only
        rw [if_neg (by omega), if_pos (by omega), hscan]
      · rw [← h2] at hb
        rw [hb]
        dsimp only
        rw [if_pos (by omega)]
  obtain ⟨q, g1, g2⟩ := placeCursor_spec hl h hm c (paraStart ps n + w.1) fun hk => hn hk _ _
  have := paraEnd_le h1
  rw [Nat.min_eq_left (by omega)] at g1
  simp only [Store.movePosition, hr, g2]
  exact g1

theorem Reads.selected_text (h : Reads s ps) {c : Cursor} (h1 : c.position ≤ docLen ps) (h2 : c.anchor ≤ docLen ps) :
    s.selectedText c = some (((docText ps).drop (min c.position c.anchor)).take
      (max c.position c.anchor - min c.position c.anchor)) := by
  unfold Store.selectedText
  by_cases he : c.position = c.anchor
  · rw [if_pos he, he]; simp
  · rw [if_neg he]
    obtain ⟨r, g1, g2, _⟩ := h.textAt (min c.position c.anchor)
      (max c.position c.anchor - min c.position c.anchor) (by rw [docText_length]; omega)
    dsimp only
    rw [g1, Option.map_some, g2]

theorem Reads.select_all (h : Reads s ps) (hm : maxCursor s = some (docLen ps)) (c : Cursor) :
    s.selectedText (s.select seg c .document) = some (docText ps) := by
  rw [Store.select, hm, Option.getD_some, h.selected_text (by simp) (by simp)]
  simp [← docText_length]

theorem Reads.block_format (h : Reads s ps) {c : Cursor} {n k : Nat} {p : SPara}
    (hi : InParagraph ps c.position n k p) : s.blockFormatAt c = some (.ofBlock p.shape) := by
  have hb := hi.at h
  obtain ⟨b, g1, g2⟩ := h.block p (List.mem_of_getElem? hi.1)
  unfold Store.blockFormatAt
  rw [hb, Option.bind_some]
  dsimp only [infoOf]
  rw [g1, Option.map_some, g2]
  rfl

theorem Reads.char_format (h : Reads s ps) {c : Cursor} {n k : Nat} {p : SPara}
    (hi : InParagraph ps c.position n k p) :
    s.charFormatAt c = some (match p.chars[k]? with
      | some (_, some x) => .ofCharFormat x
      | _ => {}) := by
  have hb := hi.at h
  have hpm := List.mem_of_getElem? hi.1
  obtain ⟨b, g1, g2⟩ := h.block p hpm
  have hid : b.id = p.id := by rw [g2]
  have hst := h.formats p hpm
  unfold Store.charFormatAt
  rw [hb, Option.bind_some]
  dsimp only [infoOf]
  rw [g1, Option.bind_some, hid, h.content hpm, Option.map_some, h.position hi.1]
  have hk : c.position - paraStart ps n = k := by have := hi.2.1; omega
  rw [hk, show s.imagesOf p.id = [] from h.images p hpm]
  simp only [List.find?_nil]
  have hf := hst.fmt (utf8Len (p.text.take k))
  have ht : p.text.take k = (p.chars.take k).map Prod.fst := by rw [SPara.text, List.map_take]
  have hx : ((byteFmts p.chars)[utf8Len (p.text.take k)]?).join = (p.chars[k]?.bind Prod.snd) := by
    rw [ht, ← byteFmts_length]
    conv => lhs; rw [← List.take_append_drop k p.chars]
    rw [byteFmts_append, List.take_append_drop, List.getElem?_append_right (by omega), Nat.sub_self]
    cases hd : p.chars.drop k with
    | nil =>
      have : p.chars[k]? = none := by
        rw [List.getElem?_eq_none_iff]; exact List.drop_eq_nil_iff.mp hd
      rw [this]; rfl
    | cons y l =>
      have : p.chars[k]? = some y := by
        have := congrArg (·[0]?) hd
        simpa using this
      rw [this]
      have := utf8Size_pos y.1
      obtain ⟨m, hm⟩ : ∃ m, y.1.utf8Size = m + 1 := ⟨y.1.utf8Size - 1, by omega⟩
      simp [byteFmts, hm, List.replicate_succ]
  rw [hx] at hf
  unfold fmtAt at hf
  change some (match (s.runsOf p.id).find? fun r => decide (r.bs ≤ utf8Len (p.text.take k) ∧
    utf8Len (p.text.take k) < r.be) with | some r => TextFormat.ofCharFormat r.fmt | none => {}) = _
  change Option.map _ ((s.runsOf p.id).find? _) = _ at hf
  generalize (s.runsOf p.id).find? _ = o at hf
  cases o with
  | none =>
    cases hc : p.chars[k]? with
    | none => rfl
    | some y => obtain ⟨y1, y2⟩ := y; rw [hc] at hf; simp at hf; subst hf; rfl
  | some r =>
    cases hc : p.chars[k]? with
    | none => rw [hc] at hf; simp at hf
    | some y => obtain ⟨y1, y2⟩ := y; rw [hc] at hf; simp at hf; subst hf; rfl

end Verif

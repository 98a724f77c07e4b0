import Verif.Lemmas.ReplacePlaced
import Verif.Lemmas.Inspect
import Verif.Lemmas.Images
import Verif.Spec.Clipboard
/- What copying a selection gives. -/
namespace Verif
variable {s : Store} {d : Document} {f : Nat} {ps L R : List SPara} {p : SPara}
open Store

theorem segItems_cons (g : Segment CharFormat) (gs : List (Segment CharFormat)) :
    segItems (g :: gs) = segItems [g] ++ segItems gs := by simp [segItems]

theorem segItems_text (cs : List Char) (fm : CharFormat) (gs : List (Segment CharFormat)) :
    segItems (.text cs fm :: gs) = cs.map (fun c => Item.char c fm) ++ segItems gs := by simp [segItems]

/-- The elements of a range of text segments. -/
theorem extractRange_spec (lo hi : Nat) (hle : lo ≤ hi) (segs : List (Segment CharFormat))
    (ht : ∀ g ∈ segs, ∃ t fm, g = .text t fm) (cur : Nat) :
    segItems (extractRange lo hi cur segs).1 = ((segItems segs).take (hi - cur)).drop (lo - cur) ∧
    (extractRange lo hi cur segs).2 = ((segsText segs).take (hi - cur)).drop (lo - cur) := by
  induction segs generalizing cur with
  | nil => simp [extractRange, segItems, segsText]
  | cons g gs ih =>
    obtain ⟨t, fm, rfl⟩ := ht g (by simp)
    have ih := ih fun x hx => ht x (by simp [hx])
    have hst : segsText (Segment.text t fm :: gs) = t ++ segsText gs := by simp [segsText, segChars]
    have hl : (segChars (Segment.text t fm)).length = t.length := rfl
    rw [hst, segItems_text]
    simp only [extractRange, hl]
    by_cases h1 : cur + t.length ≤ lo
    · rw [if_pos h1, (ih (cur + t.length)).1, (ih (cur + t.length)).2]
      have e1 : hi - cur = t.length + (hi - (cur + t.length)) := by omega
      have e2 : lo - cur = t.length + (lo - (cur + t.length)) := by omega
      constructor
      · rw [e1, e2]
        have : (t.map fun c => Item.char c fm).length = t.length := by simp
        conv => rhs; rw [← this]
        rw [List.take_length_add_append, List.drop_length_add_append]
        simp
      · rw [e1, e2, List.take_length_add_append, List.drop_length_add_append]
    · rw [if_neg h1]
      by_cases h2 : cur ≥ hi
      · rw [if_pos h2]
        have : hi - cur = 0 := by omega
        simp [this, segItems]
      · rw [if_neg h2]
        have hb : (if hi < cur + t.length then hi - cur else t.length) = min (hi - cur) t.length := by
          split <;> omega
        rw [hb]
        have hsl : (t.take (min (hi - cur) t.length)).drop (lo - cur) = (t.take (hi - cur)).drop (lo - cur) := by
          congr 1
          by_cases h : hi - cur ≤ t.length
          · rw [Nat.min_eq_left h]
          · rw [Nat.min_eq_right (by omega), List.take_of_length_le (l := t) (Nat.le_refl _),
              List.take_of_length_le (l := t) (by omega)]
        rw [hsl]
        have hz : lo - (cur + t.length) = 0 := by omega
        have key1 : segItems (extractRange lo hi (cur + t.length) gs).1 =
            (segItems gs).take (hi - cur - t.length) := by
          rw [(ih _).1, hz, List.drop_zero, Nat.sub_sub]
        have key2 : (extractRange lo hi (cur + t.length) gs).2 = (segsText gs).take (hi - cur - t.length) := by
          rw [(ih _).2, hz, List.drop_zero, Nat.sub_sub]
        have g1 : ((t.map (fun c => Item.char c fm) ++ segItems gs).take (hi - cur)).drop (lo - cur) =
            ((t.take (hi - cur)).drop (lo - cur)).map (fun c => Item.char c fm) ++
              (segItems gs).take (hi - cur - t.length) := by
          rw [List.take_append, List.length_map, List.drop_append, List.map_drop, List.map_take]
          congr 1
          have : lo - cur - (List.take (hi - cur) (List.map (fun c => Item.char c fm) t)).length = 0 := by
            simp only [List.length_take, List.length_map]; omega
          rw [this, List.drop_zero]
        have g2 : ((t ++ segsText gs).take (hi - cur)).drop (lo - cur) =
            ((t.take (hi - cur)).drop (lo - cur)) ++ (segsText gs).take (hi - cur - t.length) := by
          rw [List.take_append, List.drop_append]
          congr 1
          have : lo - cur - (List.take (hi - cur) t).length = 0 := by
            simp only [List.length_take]; omega
          rw [this, List.drop_zero]
        rw [g1, g2]
        split
        · rename_i h
          rw [h, key1, key2]; simp
        · rw [segItems_text, key1, key2]
          exact ⟨rfl, rfl⟩

theorem Flat.blocksBelow (h : Flat s d f ps) (fuel : Nat) :
    s.blocksBelow (fuel + 1) f = some (ps.map fun p => (p.id, f)) := by
  obtain ⟨fr, h1, h2, h3, h4⟩ := h.frame
  unfold Store.blocksBelow
  simp only [h1, h3]
  have hne : ¬ (ps.map fun p => (p.id : Int)) = [] := by simpa using h.nonempty
  rw [if_neg hne]
  rw [mapOpt_map (h := fun p : SPara => [(p.id, f)])]
  · simp only [Option.map_some, Option.some.injEq]
    have : ∀ l : List SPara, (l.map fun p => [(p.id, f)]).flatten = l.map fun p => (p.id, f) := by
      intro l
      induction l with
      | nil => rfl
      | cons x xs ih => simp [ih]
    exact this ps
  · intro q hq
    have := h.positive q hq
    rw [if_pos (by omega)]
    simp

theorem Shows.notCrossCopy {blocks : List Block} (did : Nat) (h : Shows s d ps)
    (ht : s.docTables did = []) (hE : ∀ x ∈ blocks, ∃ q ∈ ps, IsBlock q x) (start stop : Int) :
    s.copyCrosses did blocks start stop = some false := by
  unfold Store.copyCrosses
  have key : ∃ l, mapOpt (fun b : Block => (blockCharLength s.text b.id).map fun (len : Nat) =>
      if b.documentPosition + len < start ∨ b.documentPosition ≥ stop then []
      else [s.cellFrameOf did b.id]) blocks = some l ∧ ∀ c ∈ l.flatten, c = none := by
    induction blocks with
    | nil => exact ⟨[], rfl, by simp⟩
    | cons x xs ih =>
      obtain ⟨l, h1, h2⟩ := ih fun y hy => hE y (by simp [hy])
      obtain ⟨q, hq, hqx⟩ := hE x (by simp)
      have hid : x.id = q.id := by rw [hqx]
      simp only [mapOpt]
      rw [h1, hid, h.charLength hq]
      simp only [Option.map_some, Option.bind_some]
      refine ⟨_, rfl, ?_⟩
      intro c hc
      rw [List.flatten_cons, List.mem_append] at hc
      rcases hc with hc | hc
      · split at hc
        · simp at hc
        · rw [cellFrameOf_none did ht] at hc; simpa using hc
      · exact h2 c hc
  obtain ⟨l, h1, h2⟩ := key
  rw [h1]
  simp only [Option.map_some]
  congr 1
  split
  · rfl
  · rename_i c cs heq
    have hc := h2 c (by rw [heq]; simp)
    rw [List.any_eq_false]
    intro x hx
    have := h2 x (by rw [heq]; simp [hx])
    simp [this, hc]

/-- One paragraph. -/
theorem Legible.extractBlock (h : Legible s ps) (hp : p ∈ ps) (lo hi n last : Nat) (hlt : lo < hi) :
    (n + p.chars.length < lo ∨ hi ≤ n → s.extractBlock lo hi last (p.entity n) = some none) ∧
    (¬ (n + p.chars.length < lo ∨ hi ≤ n) → ∃ fb, s.extractBlock lo hi last (p.entity n) = some (some fb) ∧
      CopyOf s fb ⟨(p.chars.take (hi - n)).drop (lo - n),
        if lo ≤ n ∧ (n + p.chars.length < hi ∨ (p.id = last ∧ n + p.chars.length = hi)) then some p else none⟩) := by
  have hid : (p.entity (n : Int)).id = p.id := rfl
  have hpos : (p.entity (n : Int)).documentPosition = n := rfl
  have hlen := h.charLength hp
  have hlist : (p.entity (n : Int)).list = p.shape.list := rfl
  obtain ⟨segs, hs1, hs2⟩ := (h.formats p hp).segments {}
  have hseg : s.segmentsOf p.id p.text = some segs := by
    unfold Store.segmentsOf Store.imagesOf Store.runsOf
    rw [h.images p hp]; exact hs1
  constructor
  · intro hc
    unfold Store.extractBlock
    rw [hid, hlen, Option.bind_some, hpos, if_pos]
    simp only [SPara.text_length]
    omega
  · intro hc
    unfold Store.extractBlock
    rw [hid, hlen, Option.bind_some, hpos, if_neg (by simp only [SPara.text_length]; omega)]
    dsimp only
    rw [h.content hp, Option.bind_some, hseg, Option.map_some]
    refine ⟨_, rfl, ?_⟩
    have hlo : (if (lo : Int) > (n : Int) then ((lo : Int) - (n : Int)).toNat else 0) = lo - n := by
      split <;> omega
    have hhi : (if (hi : Int) < (n : Int) + ((p.text.length : Nat) : Int) then ((hi : Int) - (n : Int)).toNat
        else p.text.length) = min (hi - n) p.chars.length := by
      simp only [SPara.text_length]
      split <;> omega
    rw [hlo, hhi]
    have hext := extractRange_spec (lo - n) (min (hi - n) p.chars.length) (by omega) segs (segs_all_text hs2) 0
    have htxt := segsText_of_items hs2
    have htake : ∀ {α : Type} (l : List α), l.length = p.chars.length →
        l.take (min (hi - n) p.chars.length) = l.take (hi - n) := by
      intro α l hl
      by_cases h : hi - n ≤ p.chars.length
      · rw [Nat.min_eq_left h]
      · rw [Nat.min_eq_right (by omega), List.take_of_length_le (l := l) (by omega),
          List.take_of_length_le (l := l) (by omega)]
    have hfull : decide (lo - n = 0 ∧ min (hi - n) p.chars.length = p.text.length ∧
        ((hi : Int) > (n : Int) + ((p.text.length : Nat) : Int) ∨ p.id = last)) =
        decide (lo ≤ n ∧ (n + p.chars.length < hi ∨ (p.id = last ∧ n + p.chars.length = hi))) := by
      rw [decide_eq_decide]
      simp only [SPara.text_length]
      omega
    rw [hfull]
    constructor
    · simp only [hext.2, Nat.sub_zero, htxt]
      rw [htake _ (by simp), List.map_drop, List.map_take]
    · simp only [hext.1, Nat.sub_zero, hs2]
      rw [htake _ (by simp), List.map_drop, List.map_take]
    · simp only [decide_eq_true_eq]
      split <;> rfl
    · simp only [decide_eq_true_eq, hlist]
      split
      · rfl
      · rfl

theorem Shows.extractBlock (h : Shows s d ps) (hp : p ∈ ps) (lo hi n last : Nat) (hlt : lo < hi) :
    (n + p.chars.length < lo ∨ hi ≤ n → s.extractBlock lo hi last (p.entity n) = some none) ∧
    (¬ (n + p.chars.length < lo ∨ hi ≤ n) → ∃ fb, s.extractBlock lo hi last (p.entity n) = some (some fb) ∧
      CopyOf s fb ⟨(p.chars.take (hi - n)).drop (lo - n),
        if lo ≤ n ∧ (n + p.chars.length < hi ∨ (p.id = last ∧ n + p.chars.length = hi)) then some p else none⟩) :=
  h.legible.extractBlock hp lo hi n last hlt

/-- All paragraphs. -/
theorem Shows.extractBlocks (h : Shows s d ps) (lo hi last : Nat) (hlt : lo < hi) (qs : List SPara) (n : Nat)
    (hq : ∀ q ∈ qs, q ∈ ps) (hlast : ∀ A q B, qs = A ++ q :: B → (q.id = last ↔ B = [])) :
    ∃ l, mapOpt (s.extractBlock lo hi last) (placed n qs) = some l ∧
      CopiesOf s (l.filterMap id) (pieces lo hi n qs) := by
  induction qs generalizing n with
  | nil => exact ⟨[], rfl, trivial⟩
  | cons q qs ih =>
    have e1 : (n : Int) + ((q.text.length : Nat) + 1) = ((n + q.chars.length + 1 : Nat) : Int) := by
      simp only [SPara.text_length]; push_cast; omega
    obtain ⟨l, h1, h2⟩ := ih (n + q.chars.length + 1) (fun x hx => hq x (by simp [hx]))
      fun A x B e => hlast (q :: A) x B (by simp [e])
    have hx := h.extractBlock (hq q (by simp)) lo hi n last hlt
    have hl := hlast [] q qs rfl
    simp only [placed, mapOpt, e1]
    by_cases hc : n + q.chars.length < lo ∨ hi ≤ n
    · rw [hx.1 hc, h1]
      refine ⟨none :: l, rfl, ?_⟩
      rw [pieces, if_pos hc]
      simpa using h2
    · obtain ⟨fb, h3, h4⟩ := hx.2 hc
      rw [h3, h1]
      refine ⟨some fb :: l, rfl, ?_⟩
      rw [pieces, if_neg hc]
      rw [List.filterMap_cons_some (by rfl : id (some fb) = some fb)]
      refine ⟨?_, h2⟩
      simpa only [hl] using h4

theorem pieces_beyond {lo hi : Nat} (ps : List SPara) (n : Nat) (h : hi ≤ n) : pieces lo hi n ps = [] := by
  induction ps generalizing n with
  | nil => rfl
  | cons p ps ih => rw [pieces, if_pos (.inr h)]; exact ih _ (by omega)

theorem pieces_ne_nil {lo hi n : Nat} (h1 : lo ≤ n) (h2 : n < hi) (hne : ps ≠ []) : pieces lo hi n ps ≠ [] := by
  cases ps with
  | nil => exact absurd rfl hne
  | cons p ps => rw [pieces, if_neg (by omega)]; simp

theorem pieceChars_cons (x : Piece) {xs : List Piece} (h : xs ≠ []) :
    pieceChars (x :: xs) = x.chars ++ ('\n', none) :: pieceChars xs := by
  unfold pieceChars
  rw [List.map_cons, docChars_cons _ (by simpa using h)]

theorem pieceChars_one (x : Piece) : pieceChars [x] = x.chars := rfl

theorem slice_skip {α : Type} (A B : List α) (hi lo : Nat) (h : A.length ≤ lo) (hh : lo ≤ hi) :
    ((A ++ B).take hi).drop lo = (B.take (hi - A.length)).drop (lo - A.length) := by
  rw [List.take_append, List.drop_append, List.take_of_length_le (by omega), List.drop_of_length_le h, List.nil_append]

theorem slice_into {α : Type} (A B : List α) (hi lo : Nat) (h : lo ≤ A.length) (hh : A.length ≤ hi) :
    ((A ++ B).take hi).drop lo = A.drop lo ++ B.take (hi - A.length) := by
  rw [List.take_append, List.drop_append, List.take_of_length_le hh, show lo - A.length = 0 by omega, List.drop_zero]

theorem slice_in {α : Type} (A B : List α) (hi lo : Nat) (hh : hi ≤ A.length) :
    ((A ++ B).take hi).drop lo = (A.take hi).drop lo := by
  rw [List.take_append_of_le_length hh]

/-- The pieces make up the selection, without the end of paragraph that may close it. -/
theorem pieceChars_pieces {lo hi : Nat} (hlt : lo < hi) (ps : List SPara) (n : Nat) (hn : n < hi)
    (hle : hi ≤ n + docLen ps) :
    (¬ (∃ L p R, ps = L ++ p :: R ∧ L ≠ [] ∧ hi = n + charsBefore (paras L)) →
      pieceChars (pieces lo hi n ps) = ((docChars ps).take (hi - n)).drop (lo - n)) ∧
    ((∃ L p R, ps = L ++ p :: R ∧ L ≠ [] ∧ hi = n + charsBefore (paras L)) →
      pieceChars (pieces lo hi n ps) ++ [('\n', none)] = ((docChars ps).take (hi - n)).drop (lo - n)) := by
  induction ps generalizing n with
  | nil => simp [docLen] at hle; omega
  | cons p ps ih =>
    by_cases hps : ps = []
    · subst hps
      have hl : docLen [p] = p.chars.length := rfl
      rw [hl] at hle
      rw [pieces, if_neg (by omega)]
      constructor
      · intro _
        rw [pieces, pieceChars_one]; rfl
      · rintro ⟨L, q, R, e, hL, _⟩
        cases L with
        | nil => exact absurd rfl hL
        | cons x L => simp at e
    · rw [docLen_cons p hps] at hle
      have hst : (∃ L q R, p :: ps = L ++ q :: R ∧ L ≠ [] ∧ hi = n + charsBefore (paras L)) ↔
          (hi = n + p.chars.length + 1 ∨
            ∃ L q R, ps = L ++ q :: R ∧ L ≠ [] ∧ hi = n + p.chars.length + 1 + charsBefore (paras L)) := by
        constructor
        · rintro ⟨L, q, R, e, hL, h⟩
          cases L with
          | nil => exact absurd rfl hL
          | cons x L =>
            rw [List.cons_append, List.cons.injEq] at e
            obtain ⟨rfl, e⟩ := e
            rw [charsBefore_paras_cons] at h
            by_cases hL' : L = []
            · left; subst hL'; rw [charsBefore_paras_nil] at h; omega
            · right; exact ⟨L, q, R, e, hL', by omega⟩
        · rintro (h | ⟨L, q, R, e, hL, h⟩)
          · obtain ⟨q, R, rfl⟩ := List.exists_cons_of_ne_nil hps
            exact ⟨[p], q, R, rfl, by simp, by rw [charsBefore_paras_cons, charsBefore_paras_nil]; omega⟩
          · exact ⟨p :: L, q, R, by simp [e], by simp, by rw [charsBefore_paras_cons]; omega⟩
      rw [hst, docChars_cons p hps]
      have hcut : p.chars ++ ('\n', none) :: docChars ps = (p.chars ++ [('\n', none)]) ++ docChars ps := by simp
      by_cases h1 : n + p.chars.length < lo
      · rw [pieces, if_pos (.inl h1), hcut, slice_skip _ _ _ _ (by simp; omega) (by omega)]
        have := ih (n + p.chars.length + 1) (by omega) (by omega)
        have e1 : hi - n - (p.chars ++ [('\n', (none : Option CharFormat))]).length = hi - (n + p.chars.length + 1) := by
          simp; omega
        have e2 : lo - n - (p.chars ++ [('\n', (none : Option CharFormat))]).length = lo - (n + p.chars.length + 1) := by
          simp; omega
        rw [e1, e2]
        refine ⟨fun hne => this.1 fun hx => hne (.inr hx), ?_⟩
        rintro (h | h)
        · omega
        · exact this.2 h
      · rw [pieces, if_neg (by omega)]
        by_cases h2 : hi ≤ n + p.chars.length
        · rw [pieces_beyond _ _ (by omega), pieceChars_one, slice_in _ _ _ _ (by omega)]
          refine ⟨fun _ => rfl, ?_⟩
          rintro (h | ⟨L, q, R, e, hL, h⟩) <;> omega
        · by_cases h3 : hi = n + p.chars.length + 1
          · rw [pieces_beyond _ _ (by omega), pieceChars_one, slice_into _ _ _ _ (by omega) (by omega)]
            refine ⟨fun hne => absurd (.inl h3) hne, fun _ => ?_⟩
            rw [show hi - n - p.chars.length = 1 by omega, List.take_of_length_le (l := p.chars) (by omega)]
            rfl
          · have hne' := pieces_ne_nil (ps := ps) (lo := lo) (hi := hi) (n := n + p.chars.length + 1) (by omega) (by omega) hps
            have := ih (n + p.chars.length + 1) (by omega) (by omega)
            rw [pieceChars_cons _ hne', slice_into _ _ _ _ (by omega) (by omega)]
            rw [show hi - n - p.chars.length = (hi - (n + p.chars.length + 1)) + 1 by omega, List.take_succ_cons]
            rw [show lo - (n + p.chars.length + 1) = 0 by omega, List.drop_zero] at this
            simp only [List.take_of_length_le (l := p.chars) (show p.chars.length ≤ hi - n by omega)]
            constructor
            · intro hne
              rw [this.1 fun hx => hne (.inr hx)]
            · rintro (h | h)
              · omega
              · rw [← this.2 h]; simp

theorem charsBefore_sum (L : List SPara) : charsBefore (paras L) = (L.map fun q => q.chars.length + 1).sum := by
  simp [charsBefore, paras, SPara.text, Function.comp_def]

theorem joinLines_joinNl (ls : List (List Char)) : joinLines ls = joinNl ls := by
  induction ls with
  | nil => rfl
  | cons l ls ih =>
    cases ls with
    | nil => simp [joinLines, joinNl]
    | cons m ls =>
      rw [joinNl, ← ih]
      · simp [joinLines]
      · simp

theorem copies_text {fbs : List FragBlock} {xs : List Piece} (h : CopiesOf s fbs xs) :
    joinLines (fbs.map FragBlock.text) = (pieceChars xs).map Prod.fst := by
  unfold pieceChars
  rw [joinLines_joinNl, ← docText_chars, docText, List.map_map]
  congr 1
  induction fbs generalizing xs with
  | nil => cases xs with
    | nil => rfl
    | cons x xs => exact h.elim
  | cons fb fbs ih => cases xs with
    | nil => exact h.elim
    | cons x xs => simp only [List.map_cons, ih h.2, h.1.text]; rfl

theorem getLast_placed (r : Int) (qs : List SPara) (p : SPara) :
    ((placed r (qs ++ [p])).getLast?.map Block.id).getD 0 = p.id := by
  rw [placed_append]; simp [placed, SPara.entity]

end Verif

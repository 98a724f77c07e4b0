import Verif.Lemmas.Editing
import Verif.Lemmas.Flat
import Verif.Lemmas.Styled
import Verif.Lemmas.Fragments
import Verif.Model.Inspect
/- Reading a flat document by position. -/
namespace Verif

/-- A byte that is not a character boundary has the format of the byte before it. -/
theorem byteFmts_inside (cs : List SChar) (n : Nat) (hn : n < utf8Len (cs.map Prod.fst))
    (hb : ¬ IsBoundary (cs.map Prod.fst) n) :
    0 < n ∧ (byteFmts cs)[n - 1]? = (byteFmts cs)[n]? := by
  induction cs generalizing n with
  | nil => simp at hn
  | cons c cs ih =>
    have hn0 : n ≠ 0 := fun e => hb ⟨[], _, rfl, by simp [e]⟩
    refine ⟨by omega, ?_⟩
    have hbf : byteFmts (c :: cs) = List.replicate c.1.utf8Size c.2 ++ byteFmts cs := by simp [byteFmts]
    rw [hbf]
    have hc := utf8Size_pos c.1
    by_cases h : n < c.1.utf8Size
    · rw [List.getElem?_append_left (by simp; omega), List.getElem?_append_left (by simp; omega),
        List.getElem?_replicate, List.getElem?_replicate, if_pos h, if_pos (by omega)]
    · have hne : n ≠ c.1.utf8Size := fun e => hb ⟨[c.1], cs.map Prod.fst, rfl, by simp [e]⟩
      have := ih (n - c.1.utf8Size) (by simp at hn; omega) (by
        rintro ⟨a, b, e1, e2⟩
        exact hb ⟨c.1 :: a, b, by simp [e1], by simp [e2]; omega⟩)
      rw [List.getElem?_append_right (by simp; omega), List.getElem?_append_right (by simp; omega)]
      simp only [List.length_replicate]
      rw [show n - 1 - c.1.utf8Size = n - c.1.utf8Size - 1 by omega]
      exact this.2

/-- In an ordered, coalesced table the byte before a span does not have the span's format, nor does
the byte after it. -/
theorem span_edges {F : Type} {runs : List (Run F)} (ho : Ordered runs) (hc : Coalesced runs)
    {r : Run F} (hr : r ∈ runs) :
    fmtAt runs r.bs = some r.fmt ∧ fmtAt runs (r.be - 1) = some r.fmt ∧
    (0 < r.bs → fmtAt runs (r.bs - 1) ≠ some r.fmt) ∧ fmtAt runs r.be ≠ some r.fmt := by
  induction runs with
  | nil => simp at hr
  | cons a l ih =>
    have ho' := ordered_cons.mp ho
    have hcl : Coalesced l := by cases l with
      | nil => trivial
      | cons b l => exact hc.2
    have hane := ho.nonempty a (by simp)
    rcases List.mem_cons.mp hr with rfl | hr
    · have hl : ∀ x ∈ l, r.be ≤ x.bs := by
        have := ho.sorted; rw [List.pairwise_cons] at this; exact this.1
      refine ⟨?_, ?_, ?_, ?_⟩
      · rw [fmtAt_cons, if_pos (by omega)]
      · rw [fmtAt_cons, if_pos (by omega)]
      · intro h0
        rw [fmtAt_cons, if_neg (by omega), fmtAt_of_lt hl (by omega)]; simp
      · rw [fmtAt_cons, if_neg (by omega)]
        cases l with
        | nil => simp [fmtAt]
        | cons b l =>
          have hb := hl b (by simp)
          by_cases e : r.be = b.bs
          · have hbne := ho.nonempty b (by simp)
            rw [fmtAt_cons, if_pos (by omega)]
            intro hf
            exact hc.1 ⟨e, by simpa using hf.symm⟩
          · rw [fmtAt_of_lt (k := b.bs) ?_ (by omega)]
            · simp
            · intro x hx
              rcases List.mem_cons.mp hx with rfl | hx
              · exact Nat.le_refl _
              · have h2 := ho.sorted
                rw [List.pairwise_cons, List.pairwise_cons] at h2
                have h3 := h2.2.1 x hx
                have := ho.nonempty b (by simp)
                omega
    · have hol : Ordered l := ⟨fun x hx => ho.nonempty x (by simp [hx]), by
        have := ho.sorted; rw [List.pairwise_cons] at this; exact this.2⟩
      obtain ⟨h1, h2, h3, h4⟩ := ih hol hcl hr
      have har : a.be ≤ r.bs := by
        have := ho.sorted; rw [List.pairwise_cons] at this; exact this.1 r hr
      have hrne := ho.nonempty r (by simp [hr])
      refine ⟨?_, ?_, ?_, ?_⟩
      · rw [fmtAt_cons, if_neg (by omega), h1]
      · rw [fmtAt_cons, if_neg (by omega), h2]
      · intro h0
        rw [fmtAt_cons]
        split
        · next hin =>
          intro hf
          have e : a.be = r.bs := by omega
          cases l with
          | nil => simp at hr
          | cons b l =>
            rcases List.mem_cons.mp hr with rfl | hr'
            · exact hc.1 ⟨e, by simpa using hf⟩
            · have h2 := ho.sorted
              rw [List.pairwise_cons, List.pairwise_cons] at h2
              have := h2.2.1 r hr'
              have := h2.1 b (by simp)
              have := ho.nonempty b (by simp)
              omega
        · exact h3 h0
      · rw [fmtAt_cons, if_neg (by omega)]; exact h4

theorem isBoundary_end (cs : List Char) : IsBoundary cs (utf8Len cs) := ⟨cs, [], by simp, rfl⟩

/-- The spans of a paragraph start and end between characters. -/
theorem StyledOk.aligned {runs : List (Run CharFormat)} {cs : List SChar} (h : StyledOk runs cs) :
    Aligned (cs.map Prod.fst) runs [] := by
  refine ⟨?_, by simp⟩
  intro r hr
  obtain ⟨h1, h2, h3, h4⟩ := span_edges h.wf.ordered h.wf.coalesced hr
  have hne := h.wf.ordered.nonempty r hr
  have hin := h.wf.inside r hr
  constructor
  · apply Classical.byContradiction
    intro hb
    obtain ⟨h5, h6⟩ := byteFmts_inside cs r.bs (by omega) hb
    apply h3 h5
    rw [h.fmt, h6, ← h.fmt, h1]
  · by_cases he : r.be = utf8Len (cs.map Prod.fst)
    · rw [he]; exact isBoundary_end _
    · apply Classical.byContradiction
      intro hb
      obtain ⟨h5, h6⟩ := byteFmts_inside cs r.be (by omega) hb
      apply h4
      rw [h.fmt, ← h6, ← h.fmt, h2]

/-- Characters with their shown formats. -/
theorem reading_styled {runs : List (Run CharFormat)} (d : CharFormat) (a cs : List SChar)
    (h : ∀ i, fmtAt runs i = ((byteFmts (a ++ cs))[i]?).join) :
    reading (shownFmt d runs) (utf8Len (a.map Prod.fst)) (cs.map Prod.fst) [] =
      cs.map fun c => .char c.1 (c.2.getD d) := by
  induction cs generalizing a with
  | nil => rfl
  | cons c cs ih =>
    simp only [List.map_cons, reading, List.takeWhile_nil, List.map_nil, List.nil_append,
      List.dropWhile_nil]
    congr 1
    · congr 1
      unfold shownFmt
      rw [h, byteFmts_append, List.getElem?_append_right (by simp)]
      have hc := utf8Size_pos c.1
      have : byteFmts (c :: cs) = List.replicate c.1.utf8Size c.2 ++ byteFmts cs := by simp [byteFmts]
      rw [this, List.getElem?_append_left (by simp; omega)]
      simp [List.getElem?_replicate, hc]
    · have := ih (a ++ [c]) (by intro i; rw [h]; simp)
      simpa using this

/-- What the segments of a paragraph show: its characters with their formats. -/
theorem StyledOk.segments {runs : List (Run CharFormat)} {cs : List SChar} (d : CharFormat)
    (h : StyledOk runs cs) :
    ∃ segs, inlineSegmentsView d (cs.map Prod.fst) runs [] = some segs ∧
      segItems segs = cs.map fun c => .char c.1 (c.2.getD d) := by
  obtain ⟨segs, h1, h2⟩ := inlineSegmentsView_spec d (cs.map Prod.fst) runs [] h.wf.ordered (by simp)
    h.aligned (by simp)
  refine ⟨segs, h1, ?_⟩
  rw [h2]
  have := reading_styled d [] cs (runs := runs) h.fmt
  simpa using this

/-- The text of segments. -/
def segsText (segs : List (Segment CharFormat)) : List Char := segs.flatMap Store.segChars

theorem segsText_of_items {segs : List (Segment CharFormat)} {cs : List SChar} {d : CharFormat}
    (h : segItems segs = cs.map fun c => .char c.1 (c.2.getD d)) : segsText segs = cs.map Prod.fst := by
  have key : ∀ segs : List (Segment CharFormat),
      (segItems segs).map (fun | .char c _ => c | .image _ => objChar) = segsText segs := by
    intro segs
    induction segs with
    | nil => rfl
    | cons g gs ih =>
      have hi : segItems (g :: gs) = segItems [g] ++ segItems gs := by simp [segItems]
      rw [hi, List.map_append, ih]
      cases g with
      | text cs f => simp [segItems, segsText, Store.segChars, Function.comp_def]
      | image i => simp [segItems, segsText, Store.segChars]
  rw [← key, h]
  simp [Function.comp_def]

namespace Store

theorem readSegs_spec (bid off : Nat) (segs : List (Segment CharFormat)) (cur byte : Nat) (r : ReadSt) :
    (readSegs bid off cur byte segs r).text =
      r.text ++ ((segsText segs).drop (off - cur)).take r.remaining ∧
    (readSegs bid off cur byte segs r).remaining =
      r.remaining - ((segsText segs).length - (off - cur)) := by
  induction segs generalizing cur byte r with
  | nil => simp [readSegs, segsText]
  | cons g gs ih =>
    have ht : segsText (g :: gs) = segChars g ++ segsText gs := by simp [segsText]
    unfold readSegs
    split
    · next h0 => simp [h0]
    · next h0 =>
      rw [ht]
      by_cases h : cur + (segChars g).length > off
      · simp only [if_pos h]
        obtain ⟨e1, e2⟩ := ih (cur + (segChars g).length) (byte + segBytes g)
          ⟨r.text ++ ((segChars g).drop (off - cur)).take
              (min ((segChars g).length - (off - cur)) r.remaining),
            r.remaining - min ((segChars g).length - (off - cur)) r.remaining,
            some (r.first.getD (synthElementId bid byte))⟩
        rw [e1, e2]
        have h1 : off - (cur + (segChars g).length) = 0 := by omega
        rw [h1]
        simp only [List.drop_zero, List.length_append]
        constructor
        · rw [List.drop_append_of_le_length (by omega), List.append_assoc, List.take_append]
          congr 2
          · rw [List.take_eq_take_iff]; simp; omega
          · congr 1; simp; omega
        · omega
      · simp only [if_neg h]
        obtain ⟨e1, e2⟩ := ih (cur + (segChars g).length) (byte + segBytes g) r
        rw [e1, e2]
        have h1 : off - (cur + (segChars g).length) = off - cur - (segChars g).length := by omega
        rw [h1, List.drop_append, List.drop_of_length_le (l := segChars g) (by omega)]
        simp only [List.nil_append, List.length_append, true_and]
        omega

end Store

open Store

/-- The paragraphs can be read by their ids, and have no images. -/
structure Legible (s : Store) (ps : List SPara) : Prop where
  content : ∀ {p}, p ∈ ps → blockContent s.text p.id = some p.text
  charLength : ∀ {p}, p ∈ ps → blockCharLength s.text p.id = some p.text.length
  formats : ∀ p ∈ ps, StyledOk ((s.formatRuns p.id).getD []) p.chars
  images : ∀ p ∈ ps, (s.blockImages p.id).getD [] = []

theorem Shows.legible {s : Store} {d : Document} {ps : List SPara} (h : Shows s d ps) : Legible s ps :=
  ⟨fun hp => h.content hp, fun hp => h.charLength hp, h.formats, h.images⟩

/-- Reading on from the start of a later paragraph. -/
theorem Legible.readBlocks_tail {s : Store} {ps : List SPara} (h : Legible s ps) (off : Nat)
    (R : List SPara) (hR : ∀ p ∈ R, p ∈ ps) (r : ReadSt) :
    ∃ r', s.readBlocks off false (R.map SPara.id) r = some r' ∧
      r'.text = r.text ++ ((tailChars R).map Prod.fst).take r.remaining := by
  induction R generalizing r with
  | nil => exact ⟨r, rfl, by simp [tailChars]⟩
  | cons p R ih =>
    have hp := hR p (by simp)
    have ht : tailChars (p :: R) = ('\n', none) :: p.chars ++ tailChars R := by simp [tailChars]
    simp only [List.map_cons, Store.readBlocks]
    split
    · next h0 => exact ⟨r, rfl, by simp [h0]⟩
    · next h0 =>
      simp only [Bool.false_eq_true, if_false]
      obtain ⟨n, hn⟩ : ∃ n, r.remaining = n + 1 := ⟨r.remaining - 1, by omega⟩
      split
      · next h1 =>
        refine ⟨_, rfl, ?_⟩
        rw [hn] at h1 ⊢
        have : n = 0 := by omega
        subst this
        simp [ht]
      · rw [h.content hp, Option.bind_some]
        obtain ⟨segs, hs1, hs2⟩ := (h.formats p hp).segments {}
        have hseg : s.segmentsOf p.id p.text = some segs := by
          unfold segmentsOf imagesOf
          rw [h.images p hp]; exact hs1
        rw [hseg, Option.bind_some]
        obtain ⟨e1, e2⟩ := readSegs_spec p.id 0 segs 0 0 ⟨r.text ++ ['\n'], r.remaining - 1, r.first⟩
        rw [segsText_of_items hs2] at e1 e2
        obtain ⟨r', hr1, hr2⟩ := ih (fun q hq => hR q (by simp [hq]))
          (readSegs p.id 0 0 0 segs ⟨r.text ++ ['\n'], r.remaining - 1, r.first⟩)
        refine ⟨r', hr1, ?_⟩
        rw [hr2, e1, e2, ht, hn]
        simp [List.take_append]

/-- Reading from inside a paragraph. -/
theorem Legible.readBlocks_first {s : Store} {L R : List SPara} {p : SPara} {a b : List SChar}
    (h : Legible s (L ++ p :: R)) (hc : p.chars = a ++ b) (n : Nat) :
    ∃ r', s.readBlocks a.length true ((p :: R).map SPara.id) ⟨[], n, none⟩ = some r' ∧
      r'.text = ((b ++ tailChars R).map Prod.fst).take n := by
  have hp : p ∈ L ++ p :: R := by simp
  simp only [List.map_cons, Store.readBlocks]
  split
  · next h0 => exact ⟨_, rfl, by simp [h0]⟩
  · next h0 =>
    simp only [if_true]
    rw [h.content hp, Option.bind_some]
    obtain ⟨segs, hs1, hs2⟩ := (h.formats p hp).segments {}
    have hseg : s.segmentsOf p.id p.text = some segs := by
      unfold segmentsOf imagesOf
      rw [h.images p hp]; exact hs1
    rw [hseg, Option.bind_some]
    obtain ⟨e1, e2⟩ := readSegs_spec p.id a.length segs 0 0 ⟨[], n, none⟩
    rw [segsText_of_items hs2] at e1 e2
    obtain ⟨r', hr1, hr2⟩ := h.readBlocks_tail a.length R (fun q hq => by simp [hq])
      (readSegs p.id a.length 0 0 segs ⟨[], n, none⟩)
    refine ⟨r', by simp only [if_neg h0]; exact hr1, ?_⟩
    rw [hr2, e1, e2, hc]
    simp only [Nat.sub_zero, List.nil_append, List.map_append]
    rw [List.drop_left' (by simp), List.take_append]
    simp

/-- The block of a position. -/
theorem Legible.seek {s : Store} {ps : List SPara} (h : Legible s ps)
    (L R : List SPara) (p : SPara) (hm : ∀ q ∈ L ++ p :: R, q ∈ ps) (a b : List SChar) (hc : p.chars = a ++ b)
    (running : Int) (pos : Int) (hpos : pos = running + ((charsBefore (paras L) + a.length : Nat) : Int)) :
    s.seekBlock pos running ((L ++ p :: R).map SPara.id) = some (some (a.length, (p :: R).map SPara.id)) := by
  induction L generalizing running with
  | nil =>
    simp only [List.nil_append, List.map_cons, Store.seekBlock]
    rw [h.charLength (hm p (by simp)), Option.bind_some]
    have : p.text.length = a.length + b.length := by simp [SPara.text, hc]
    rw [if_pos (by simp at hpos; omega)]
    simp at hpos
    rw [show (pos - running).toNat = a.length by omega]
  | cons q L ih =>
    simp only [List.cons_append, List.map_cons, Store.seekBlock]
    rw [h.charLength (hm q (by simp)), Option.bind_some]
    have hq : q.text.length = q.chars.length := by simp [SPara.text]
    rw [charsBefore_paras_cons] at hpos
    rw [if_neg (by omega)]
    exact ih (fun x hx => hm x (List.mem_cons_of_mem _ hx)) _ (by omega)

theorem Legible.seek_past {s : Store} {ps : List SPara} (h : Legible s ps)
    (L : List SPara) (hm : ∀ q ∈ L, q ∈ ps) (running pos : Int)
    (hpos : pos < running ∨ (L ≠ [] → pos > running + docLen L)) :
    s.seekBlock pos running (L.map SPara.id) = some none := by
  induction L generalizing running with
  | nil => rfl
  | cons q L ih =>
    simp only [List.map_cons, Store.seekBlock]
    rw [h.charLength (hm q (by simp)), Option.bind_some]
    have hq : q.text.length = q.chars.length := by simp [SPara.text]
    by_cases hL : L = []
    · subst hL
      have : docLen [q] = q.chars.length := rfl
      rw [this] at hpos
      rw [if_neg (by simp at hpos; omega)]
      rfl
    · rw [docLen_cons q hL] at hpos
      rw [if_neg (by simp at hpos; omega)]
      exact ih (fun x hx => hm x (by simp [hx])) _ (by
        simp only [ne_eq, reduceCtorEq, not_false_eq_true, forall_const] at hpos
        rcases hpos with hpos | hpos
        · left; omega
        · right; intro _; omega)

end Verif

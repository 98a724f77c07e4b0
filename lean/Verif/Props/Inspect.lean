import Verif.Lemmas.Inspect
import Verif.Lemmas.Import
import Verif.Spec.Inspect
import Verif.Props.RopeStore
import Verif.Props.Fragments
/-
Property theorems C48 (and C07 for whole documents): reading a document.  Vocabulary: `Verif/Spec/{Document, Editing,
Inspect}.lean`.
-/
namespace Verif
variable {s : Store} {d : Document} {f : Nat} {ps : List SPara}

open Store

theorem getBlocks_ids (h : Flat s d f ps) : (s.getBlocks (ps.map SPara.id)).map Block.id = ps.map SPara.id := by
  rw [h.getBlocks]; simp [SPara.entity, Function.comp_def]

/-- Reading by position where the paragraphs can be read and the flow lists them. -/
theorem Legible.textAt {did : Nat} (h : Legible s ps) (hne : ps ≠ []) (hd : s.docId = some did)
    (hf : s.flowBlocks did = some (ps.map SPara.id))
    (hg : (s.getBlocks (ps.map SPara.id)).map Block.id = ps.map SPara.id) (pos len : Nat) (hp : pos ≤ (docText ps).length) :
    ∃ r, s.textAt pos len = some r ∧ r.text = ((docText ps).drop pos).take len ∧
      ∃ n p, ps[n]? = some p ∧ r.blockId = p.id ∧ paraStart ps n ≤ pos ∧
        pos ≤ paraStart ps n + p.chars.length := by
  have hl : (docText ps).length = docLen ps := by rw [docText_chars]; simp [docChars_length]
  rw [hl] at hp
  obtain ⟨L, p, R, a, b, rfl, hc, rfl⟩ := locate ps hne pos hp
  obtain ⟨r, hr1, hr2⟩ := h.readBlocks_first hc len
  have hs := h.seek L R p (fun q hq => hq) a b hc 0
    ((charsBefore (paras L) + a.length : Nat) : Int) (by omega)
  refine ⟨⟨r.text, p.id, r.first.getD 0⟩, ?_, ?_, L.length, p, ?_, rfl, ?_, ?_⟩
  · unfold Store.textAt
    rw [if_neg (by omega), hd, Option.bind_some, hf, Option.bind_some, hg,
      hs, Option.bind_some]
    simp only [List.map_cons, Int.toNat_natCast] at hr1 ⊢
    rw [hr1]; rfl
  · show r.text = _
    rw [hr2, docText_chars, ← List.map_drop, drop_docChars L R hc]
  · simp
  · have : paraStart (L ++ p :: R) L.length = charsBefore (paras L) := by
      simp [paraStart, charsBefore, paras, Function.comp_def, SPara.text]
    omega
  · have : paraStart (L ++ p :: R) L.length = charsBefore (paras L) := by
      simp [paraStart, charsBefore, paras, Function.comp_def, SPara.text]
    simp [hc]; omega

theorem Legible.textAt_limits {did : Nat} (h : Legible s ps) (hd : s.docId = some did)
    (hf : s.flowBlocks did = some (ps.map SPara.id))
    (hg : (s.getBlocks (ps.map SPara.id)).map Block.id = ps.map SPara.id) (pos len : Int) :
    (len < 0 → s.textAt pos len = some ⟨[], 0, 0⟩) ∧
    (0 ≤ len → (pos < 0 ∨ (docText ps).length < pos) → s.textAt pos len = none) := by
  have hl : (docText ps).length = docLen ps := by rw [docText_chars]; simp [docChars_length]
  rw [hl]
  constructor
  · intro hn; unfold Store.textAt; rw [if_pos hn]
  · intro hn hp
    unfold Store.textAt
    rw [if_neg (by omega), hd, Option.bind_some, hf, Option.bind_some, hg,
      h.seek_past ps (fun q hq => hq) 0 pos (by
        rcases hp with hp | hp
        · left; exact hp
        · right; intro _; omega)]
    rfl

/-- **C48 (text).** For every table- and image-free document, every position in it and every length,
`text_at(position, length)` is the stretch of the plain text of that length from that position, cut at
the end of the document; it names the paragraph the position is in. -/
theorem C48_text_at (h : Flat s d f ps) (pos len : Nat) (hp : pos ≤ (docText ps).length) :
    ∃ r, s.textAt pos len = some r ∧ r.text = ((docText ps).drop pos).take len ∧
      ∃ n p, ps[n]? = some p ∧ r.blockId = p.id ∧ paraStart ps n ≤ pos ∧
        pos ≤ paraStart ps n + p.chars.length :=
  h.toShows.legible.textAt h.nonempty h.docId h.flowBlocks (getBlocks_ids h) pos len hp

/-- **C48 (text, limits).** A negative length reads nothing; a position before the start or past the
end is refused. -/
theorem C48_text_at_limits (h : Flat s d f ps) (pos len : Int) :
    (len < 0 → s.textAt pos len = some ⟨[], 0, 0⟩) ∧
    (0 ≤ len → (pos < 0 ∨ (docText ps).length < pos) → s.textAt pos len = none) :=
  h.toShows.legible.textAt_limits h.docId h.flowBlocks (getBlocks_ids h) pos len

/-- What `block_at_position` tells about paragraph number `n`. -/
def infoOf (ps : List SPara) (n : Nat) (p : SPara) : BlockInfo :=
  ⟨p.id, paraStart ps n, p.chars.length, n⟩

theorem paraStart_at (L R : List SPara) : paraStart (L ++ R) L.length = charsBefore (paras L) := by
  simp [paraStart, charsBefore, paras, Function.comp_def, SPara.text]

theorem posOf_para {L R : List SPara} {p : SPara} (h : Shows s d (L ++ p :: R)) :
    s.text.idx.positionOf (.block p.id) = some L.length := by
  have ht := h.text
  rw [paras_append, paras_cons] at ht
  have := ht.focus.pos
  rwa [paras_length] at this

theorem layoutLen (o : Nat) (ps : List SPara) : (layout o (paras ps)).length = ps.length := by
  have := congrArg List.length (layout_keys o (paras ps))
  rw [List.length_map, List.length_map, paras_length] at this
  exact this

/-- **C48 (paragraph, every position).** The positions of a document are those of its paragraphs:
the `k`-th of paragraph `n`, `k` up to its length.  At that position `block_at_position` returns that
paragraph, with its identity, start, length and number; at the end of a non-empty paragraph followed
by another one it returns the following paragraph, likewise. -/
theorem C48_block_at (h : Flat s d f ps) :
    (∀ pos ≤ (docText ps).length, ∃ n p k, ps[n]? = some p ∧ k ≤ p.chars.length ∧ pos = paraStart ps n + k) ∧
    ∀ n p k, ps[n]? = some p → k ≤ p.chars.length →
      (k < p.chars.length ∨ p.chars = [] ∨ ps[n + 1]? = none →
        s.blockAt ((paraStart ps n + k : Nat) : Int) = some (infoOf ps n p)) ∧
      (∀ q, k = p.chars.length → p.chars ≠ [] → ps[n + 1]? = some q →
        s.blockAt ((paraStart ps n + k : Nat) : Int) = some (infoOf ps (n + 1) q)) := by
  have hl : (docText ps).length = docLen ps := by rw [docText_chars]; simp [docChars_length]
  rw [hl]
  constructor
  · intro pos hpos
    obtain ⟨L, p, R, a, b, rfl, hc, rfl⟩ := locate ps h.nonempty pos hpos
    exact ⟨L.length, p, a.length, by simp, by simp [hc], by rw [paraStart_at]⟩
  · intro n p k hn hk
    obtain ⟨hlt, hget⟩ := List.getElem?_eq_some_iff.mp hn
    obtain ⟨L, R, rfl, rfl⟩ : ∃ L R, ps = L ++ p :: R ∧ n = L.length :=
      ⟨ps.take n, ps.drop (n + 1), by rw [← hget]; simp, by simp; omega⟩
    have hc : p.chars = p.chars.take k ++ p.chars.drop k := by simp
    have hkl : (p.chars.take k).length = k := by simp; omega
    have hf := h.toShows.find hc
    rw [hkl] at hf
    have hpl : p.text.length = p.chars.length := by simp [SPara.text]
    have hpm : p ∈ L ++ p :: R := by simp
    obtain ⟨e, he, hbe⟩ := h.block p hpm
    have heid : e.id = p.id := by rw [hbe]
    rw [paraStart_at]
    constructor
    · intro hcase
      have hnone : (if 0 < p.chars.length ∧ (k : Int) = (p.chars.length : Nat) then
          nextBlock s.text p.id else none) = none := by
        split
        · next hh =>
          rcases hcase with hcase | hcase | hcase
          · omega
          · simp [hcase] at hh
          · have hR : R = [] := by
              cases R with
              | nil => rfl
              | cons q R => simp at hcase
            unfold nextBlock
            rw [posOf_para h.toShows, Option.bind_some]
            subst hR
            rw [h.text.starts]
            have : (layout 0 (paras (L ++ [p])))[L.length + 1]? = none := by
              rw [List.getElem?_eq_none_iff]
              rw [layoutLen]; simp
            rw [this]; rfl
        · rfl
      unfold blockAt
      rw [hf, Option.bind_some]
      simp only [he, Option.bind_some, heid]
      rw [h.charLength hpm, Option.bind_some, hpl, hnone]
      simp only [posOf_para h.toShows, Option.getD_some, infoOf, paraStart_at]
    · intro q hkq hpne hq
      obtain ⟨R, rfl⟩ : ∃ R', R = q :: R' := by
        cases R with
        | nil => simp at hq
        | cons x R => simp at hq; exact ⟨R, by rw [hq]⟩
      have hsplit : L ++ p :: q :: R = (L ++ [p]) ++ q :: R := by simp
      have hqm : q ∈ L ++ p :: q :: R := by simp
      have hsh2 : Shows s d ((L ++ [p]) ++ q :: R) := by rw [← hsplit]; exact h.toShows
      have htq := hsh2.text
      rw [paras_append, paras_cons] at htq
      have fq := htq.focus
      have hnext : (if 0 < p.chars.length ∧ (k : Int) = (p.chars.length : Nat) then
          nextBlock s.text p.id else none) = some (q.id, span (paras (L ++ [p]))) := by
        rw [if_pos ⟨List.length_pos_iff.mpr hpne, by rw [hkq]⟩]
        unfold nextBlock
        rw [posOf_para h.toShows, Option.bind_some, fq.entries]
        have : (layout 0 (paras (L ++ [p]))).length = L.length + 1 := by rw [layoutLen]; simp
        rw [List.getElem?_append_right (by omega)]
        rw [this]; simp [Marker.asBlock]
      obtain ⟨e', he', hbe'⟩ := h.block q hqm
      have heid' : e'.id = q.id := by rw [hbe']
      unfold blockAt
      rw [hf, Option.bind_some]
      simp only [he, Option.bind_some, heid]
      rw [h.charLength hpm, Option.bind_some, hpl, hnext]
      simp only []
      rw [show s.rope = s.text.rope from rfl, fq.charStart, Option.bind_some, he', Option.bind_some, heid',
        h.charLength hqm]
      simp only [Option.map_some, posOf_para hsh2, Option.getD_some, infoOf, hsplit]
      have : paraStart (L ++ [p] ++ q :: R) (L.length + 1) = charsBefore (paras (L ++ [p])) := by
        have := paraStart_at (L ++ [p]) (q :: R)
        simpa using this
      rw [this]
      simp [SPara.text]

/-- **C48 (paragraph, outside).** Before the start of the document `block_at_position` answers as at
position 0, past its end with the last paragraph. -/
theorem C48_block_at_limits (h : Flat s d f ps) (pos : Int) :
    (pos < 0 → s.blockAt pos = s.blockAt 0) ∧
    ((docText ps).length ≤ pos → ∃ p, ps.getLast? = some p ∧ s.blockAt pos = some (infoOf ps (ps.length - 1) p)) := by
  have hrl : s.text.rope.length = (docText ps).length := by
    rw [h.text.text, paras_snd]; rfl
  obtain ⟨_, hneg, hbig⟩ := C15_total_and_clamped h.text
    (by simpa [paras] using h.nonempty) (paras_isTable ps)
  rw [← h.len] at hneg hbig
  have hnb : s.text.idx.anchors = 0 ∧ s.text.idx.entries.length = s.blocks.len := by
    have := h.matchFlow
    unfold ropePositionsMatchFlow at this
    simpa using this
  constructor
  · intro hn
    unfold blockAt
    rw [hneg pos hn]
    have hl := locate ps h.nonempty 0 (Nat.zero_le _)
    obtain ⟨L, p, R, a, b, rfl, hc, h0⟩ := hl
    have := h.toShows.find hc
    rw [← h0] at this
    have h0' : ((0 : Nat) : Int) = 0 := rfl
    rw [h0'] at this
    rw [this]; rfl
  · intro hp
    obtain ⟨A, p, rfl⟩ : ∃ A p, ps = A ++ [p] := by
      rcases List.eq_nil_or_concat ps with e | ⟨A, p, e⟩
      · exact absurd e h.nonempty
      · exact ⟨A, p, by simpa using e⟩
    refine ⟨p, by simp, ?_⟩
    have hlast := ((C48_block_at h).2 A.length p p.chars.length (by simp) (Nat.le_refl _)).1
      (by right; right; simp)
    have hlen : (docText (A ++ [p])).length = paraStart (A ++ [p]) A.length + p.chars.length := by
      rw [docText_chars, List.length_map, docChars_mid, paraStart_at, ← headChars_length]
      simp [tailChars]
    have he : s.blockAt pos = s.blockAt ((docText (A ++ [p])).length : Int) := by
      by_cases hlt : (docText (A ++ [p])).length < pos
      · have hb := hbig pos (by rw [hrl]; exact hlt)
        rw [hrl] at hb
        unfold blockAt
        rw [hb]
        have hf := h.toShows.find (a := p.chars) (b := []) (by simp)
        have e : charsBefore (paras A) + p.chars.length = (docText (A ++ [p])).length := by
          rw [hlen, paraStart_at]
        rw [e] at hf
        rw [hf]; rfl
      · have : pos = ((docText (A ++ [p])).length : Int) := by omega
        rw [this]
    rw [he, hlen, hlast]
    simp

/-- **C07 (documents).** In every image-free document the span ends of every paragraph are character
boundaries, so its fragments, and the segments the exporters read, exist and are exactly its
characters in order, each with its own format (the default one where it has none). -/
theorem C07_document_fragments {p : SPara} (h : Shows s d ps) (hp : p ∈ ps) :
    ∃ plain frags segs, blockContent s.text p.id = some plain ∧
      buildRawFragments {} plain (s.runsOf p.id) (s.imagesOf p.id) = some frags ∧
      s.segmentsOf p.id plain = some segs ∧
      fragItems frags = p.chars.map (fun c => .char c.1 (c.2.getD {})) ∧
      segItems segs = p.chars.map (fun c => .char c.1 (c.2.getD {})) := by
  have hf := h.formats p hp
  have hi : s.imagesOf p.id = [] := h.images p hp
  obtain ⟨segs, hs1, hs2⟩ := hf.segments {}
  obtain ⟨frags, h1, h2, _⟩ := C07_fragments_tile ({} : CharFormat) p.text (s.runsOf p.id) []
    hf.wf ⟨by simp, by simp⟩ hf.aligned
  refine ⟨p.text, frags, segs, h.content hp, by rw [hi]; exact h1, ?_, ?_, hs2⟩
  · unfold segmentsOf; rw [hi]; exact hs1
  · rw [h2]
    have := reading_styled ({} : CharFormat) [] p.chars (runs := s.runsOf p.id) hf.fmt
    simpa [SPara.text] using this

/-- The hypotheses are met: a document of two paragraphs, "ab" and "cd".  The end of "ab", position 2,
belongs to the second paragraph. -/
example : ∃ (s : Store) (d : Document) (ps : List SPara), Flat s d 2 ps ∧ docText ps = "ab\ncd".toList ∧
    (∃ r, s.textAt 1 3 = some r ∧ r.text = "b\nc".toList) ∧
    s.blockAt 1 = some ⟨2, 0, 2, 0⟩ ∧ s.blockAt 2 = some ⟨3, 3, 2, 1⟩ ∧ s.blockAt 9 = some ⟨3, 3, 2, 1⟩ := by
  obtain ⟨s, h, _⟩ := sample_flat
  refine ⟨s, _, _, h, rfl, ?_, ?_, ?_, ?_⟩
  · obtain ⟨r, h1, h2, _⟩ := C48_text_at h 1 3 (by decide)
    exact ⟨r, h1, h2⟩
  · exact ((C48_block_at h).2 0 _ 1 rfl (by decide)).1 (by left; decide)
  · exact ((C48_block_at h).2 0 _ 2 rfl (by decide)).2 _ rfl (by decide) rfl
  · obtain ⟨p, h1, h2⟩ := (C48_block_at_limits h 9).2 (by decide)
    rw [h2]
    simp only [List.getLast?_cons_cons, List.getLast?_singleton, Option.some.injEq] at h1
    subst h1; rfl

end Verif

import Verif.Lemmas.TableType
import Verif.Lemmas.Moves
/- Documents with tables can be read by position. -/
namespace Verif
variable {s : Store} {d : Document} {f : Nat} {ps : List SPara} {p : SPara} {items : List SItem} {ts : List Nat}
  {K : List Para}
open Store

theorem Carries.legible (h : Carries s K ps ts) : Legible s ps where
  content := h.content
  charLength := h.charLength
  formats := h.formats
  images := h.images

theorem flow_nil : tablesOf items = [] → items = (flowParas items).map .para := by
  induction items with
  | nil => intro; rfl
  | cons i items ih =>
    cases i with
    | para p => intro h; rw [flowParas_para, List.map_cons, ← ih (by simpa [tablesOf_para] using h)]
    | table t => intro h; rw [tablesOf_table] at h; cases h

/-- A document without tables. -/
theorem Tabled.flat (h : Tabled s d f items) (ht : tablesOf items = []) : Flat s d f (flowParas items) := by
  obtain ⟨L, hH, hsub⟩ := h.content
  have hfl : tableFrames items = [] := by simp [tableFrames, ht]
  have htop := flow_of_noTables ht
  have hne := h.nonempty
  rw [ht] at hH
  rw [htop] at hsub hne
  obtain ⟨fr, h1, h2, h3, h4, h5, h6, h7⟩ := h.frame
  rw [htop] at h7
  obtain ⟨rest, r1, r2⟩ := h.frames
  rw [hfl] at r2
  refine ⟨hH.toShows hsub h.root h.document, ?_, ?_, ⟨fr, h1, h2, ?_, h7⟩, ?_, h.positive, hne, ?_⟩
  · rw [r1, List.perm_nil.mp r2]
  · have := h.tables; rw [ht] at this; exact List.perm_nil.mp this
  · rw [h6]
    conv => lhs; rw [flow_nil ht]
    rw [List.map_map]; rfl
  · intro g x hg hne' b hb
    have := h.onlyFrames g (by rw [hg]; rfl)
    rw [hfl] at this
    exact absurd (List.mem_singleton.mp this) hne'
  · intro x hx; rw [h1] at hx; cases hx; exact ⟨h4, h5⟩

/-- The walk of `block_at_position` passes over the paragraphs that end before the position. -/
theorem Carries.walkInfo_pass (h : Carries s K ps ts) {pos : Int} {rest : List Nat} : ∀ (X : List SPara) (r : Int) (n : Nat),
    (∀ q ∈ X, q ∈ ps) → r + charsBefore (paras X) ≤ pos →
    s.walkInfo pos r n (X.map SPara.id ++ rest) = s.walkInfo pos (r + charsBefore (paras X)) (n + X.length) rest := by
  intro X
  induction X with
  | nil => intro r n _ _; simp
  | cons q X ih =>
    intro r n hm hpos
    rw [charsBefore_paras_cons] at hpos ⊢
    have hq := hm q (by simp)
    obtain ⟨b, hb, hbb⟩ := h.block q hq
    have hid : b.id = q.id := by rw [hbb]
    simp only [List.map_cons, List.cons_append, Store.walkInfo]
    rw [hb, Option.bind_some, hid, h.charLength hq, Option.bind_some, SPara.text_len, if_neg (by push_cast at hpos; omega),
      ih _ _ (fun x hx => hm x (by simp [hx])) (by push_cast at hpos; omega)]
    congr 1
    · push_cast; omega
    · simp; omega

theorem Carries.walkInfo_stop (h : Carries s K ps ts) {pos r : Int} {n : Nat} {rest : List Nat} (hp : p ∈ ps)
    (hs : pos < r + p.chars.length ∨ p.chars = [] ∧ pos = r) :
    s.walkInfo pos r n (p.id :: rest) = some (some ⟨p.id, r, p.chars.length, n⟩) := by
  obtain ⟨b, hb, hbb⟩ := h.block p hp
  have hid : b.id = p.id := by rw [hbb]
  simp only [Store.walkInfo]
  rw [hb, Option.bind_some, hid, h.charLength hp, Option.bind_some, SPara.text_len, if_pos]
  rcases hs with hs | ⟨hs, hr⟩
  · exact .inr (.inl hs)
  · exact .inr (.inr ⟨by simp [hs], hr⟩)

theorem Carries.flowStart (h : Carries s K ps ts) : ∀ (X : List SPara), (∀ q ∈ X, q ∈ ps) →
    s.flowStart (X.map SPara.id) = some ((charsBefore (paras X) : Nat) : Int) := by
  intro X
  induction X with
  | nil => intro _; rfl
  | cons q X ih =>
    intro hm
    have hq := hm q (by simp)
    obtain ⟨b, hb, hbb⟩ := h.block q hq
    have hid : b.id = q.id := by rw [hbb]
    simp only [List.map_cons, Store.flowStart]
    rw [ih (fun x hx => hm x (by simp [hx])), Option.bind_some, hb]
    dsimp only
    rw [hid, h.charLength hq, Option.map_some, charsBefore_paras_cons, SPara.text_len]
    push_cast; rfl

theorem Tabled.blockAt_of (h : Tabled s d f items) (ht : tablesOf items ≠ []) (hH : Carries s K (flowParas items)
      ((tablesOf items).map fun t => t.table.id)) {X Y : List SPara} (e : flowParas items = X ++ p :: Y) {pos : Int}
    (h1 : charsBefore (paras X) ≤ pos)
    (hs : pos < charsBefore (paras X) + p.chars.length ∨ p.chars = [] ∧ pos = charsBefore (paras X) ∨ Y = []) :
    s.blockAt pos = some (infoOf (flowParas items) X.length p) := by
  have hm : ∀ q ∈ X, q ∈ flowParas items := by intro q hq; rw [e]; simp [hq]
  have hp : p ∈ flowParas items := by rw [e]; simp
  have hi : infoOf (flowParas items) X.length p = ⟨p.id, (charsBefore (paras X) : Nat), p.chars.length, X.length⟩ := by
    rw [infoOf, e, paraStart_at]
  unfold Store.blockAt
  rw [hH.noFind (by simpa using ht), Option.bind_some]
  dsimp only
  rw [h.docIdOf, Option.bind_some, h.flowBlocks, Option.bind_some, hi]
  have hpass : s.walkInfo pos 0 0 ((flowParas items).map SPara.id) =
      s.walkInfo pos (charsBefore (paras X)) X.length (p.id :: Y.map SPara.id) := by
    rw [e, List.map_append, hH.walkInfo_pass X 0 0 hm (by omega)]
    simp
  rw [hpass]
  by_cases hstop : pos < (charsBefore (paras X) : Int) + p.chars.length ∨ p.chars = [] ∧ pos = charsBefore (paras X)
  · rw [hH.walkInfo_stop hp hstop, Option.bind_some]
  · have hY : Y = [] := by
      rcases hs with hs | hs | hs
      · exact absurd (.inl hs) hstop
      · exact absurd (.inr hs) hstop
      · exact hs
    subst hY
    obtain ⟨b, hb, hbb⟩ := hH.block p hp
    have hid : b.id = p.id := by rw [hbb]
    have hend : s.walkInfo pos (charsBefore (paras X)) X.length [p.id] = some none := by
      simp only [Store.walkInfo]
      rw [hb, Option.bind_some, hid, hH.charLength hp, Option.bind_some, SPara.text_len, if_neg]
      rintro (hs | hs | ⟨h2, h3⟩)
      · omega
      · exact hstop (.inl hs)
      · exact hstop (.inr ⟨List.length_eq_zero_iff.mp (by omega), h3⟩)
    rw [List.map_nil, hend, Option.bind_some]
    dsimp only
    rw [e]
    simp only [List.map_append, List.map_cons, List.map_nil, List.getLast?_concat, Option.bind_some, List.dropLast_concat]
    rw [hb, Option.bind_some, hH.flowStart X hm, Option.bind_some, hid, hH.charLength hp, Option.map_some, SPara.text_len]
    simp

theorem Tabled.getBlocks_ids (h : Tabled s d f items) :
    (s.getBlocks ((flowParas items).map SPara.id)).map Block.id = (flowParas items).map SPara.id := by
  obtain ⟨L, hH, _⟩ := h.content
  rw [hH.getBlocks _ fun q hq => hq]
  simp [SPara.entity, Function.comp_def]

theorem Tabled.reads (h : Tabled s d f items) : Reads s (flowParas items) := by
  by_cases ht : tablesOf items = []
  · exact (h.flat ht).reads
  obtain ⟨L, hH, hsub⟩ := h.content
  refine ⟨hH.legible, h.flow_nonempty, hH.block, ?_, ?_, ?_, ?_⟩
  · intro n p hp
    obtain ⟨b, h1, h2⟩ := h.seated ht n p hp
    unfold Store.blockPosition
    rw [h1]
    dsimp only
    rw [if_neg (by rw [hH.matchFlow]; simpa using ht), h2, Int.toNat_natCast]
  · exact hH.legible.textAt h.flow_nonempty h.docIdOf h.flowBlocks h.getBlocks_ids
  · intro n p k hp hk
    obtain ⟨X, Y, e, rfl⟩ := para_at hp
    have hps : paraStart (flowParas items) X.length = charsBefore (paras X) := by rw [e, paraStart_at]
    constructor
    · intro hc
      refine h.blockAt_of ht hH e (by rw [hps]; push_cast; omega) ?_
      rw [hps]
      rcases hc with hc | hc | hc
      · left; push_cast; omega
      · right; left; refine ⟨hc, ?_⟩; rw [hc, List.length_nil] at hk; push_cast; omega
      · right; right
        rw [e] at hc
        cases Y with
        | nil => rfl
        | cons q Y => simp at hc
    · intro q hkl hne hq
      obtain ⟨Y, rfl⟩ : ∃ Y', Y = q :: Y' := by
        cases Y with
        | nil => rw [e] at hq; simp at hq
        | cons x Y => rw [e] at hq; simp at hq; exact ⟨Y, by rw [hq]⟩
      have hqm : q ∈ flowParas items := by rw [e]; simp
      have hpm : p ∈ flowParas items := by rw [e]; simp
      have hps2 : paraStart (flowParas items) (X.length + 1) = charsBefore (paras X) + p.chars.length + 1 := by
        rw [paraStart_succ hp, hps]
      rw [hps]
      unfold Store.blockAt
      rw [hH.noFind (by simpa using ht), Option.bind_some]
      dsimp only
      rw [h.docIdOf, Option.bind_some, h.flowBlocks, Option.bind_some]
      conv => lhs; rw [e]
      rw [List.map_append, hH.walkInfo_pass X 0 0 (by intro x hx; rw [e]; simp [hx]) (by push_cast; omega)]
      obtain ⟨b, hb, hbb⟩ := hH.block p hpm
      have hid : b.id = p.id := by rw [hbb]
      obtain ⟨c, hc, hcb⟩ := hH.block q hqm
      have hic : c.id = q.id := by rw [hcb]
      have hpos : 0 < p.chars.length := List.length_pos_iff.mpr hne
      simp only [List.map_cons, Store.walkInfo]
      rw [hb, Option.bind_some, hid, hH.charLength hpm, Option.bind_some, SPara.text_len, if_neg (by push_cast; omega),
        hc, Option.bind_some, hic, hH.charLength hqm, Option.bind_some, SPara.text_len, if_pos (by left; push_cast; omega),
        Option.bind_some]
      rw [infoOf, hps2]
      simp
  · intro pos hpos
    obtain ⟨A, p, e⟩ : ∃ A p, flowParas items = A ++ [p] := by
      rcases List.eq_nil_or_concat (flowParas items) with e | ⟨A, p, e⟩
      · exact absurd e h.flow_nonempty
      · exact ⟨A, p, by simpa using e⟩
    refine ⟨p, by rw [e]; simp, ?_⟩
    have hlen : (docText (flowParas items)).length = charsBefore (paras A) + p.chars.length := by
      rw [e, docText_chars, List.length_map, docChars_mid, ← headChars_length]
      simp [tailChars]
    have := h.blockAt_of ht hH e (pos := pos) (by omega) (.inr (.inr rfl))
    rw [this, e]
    simp

end Verif

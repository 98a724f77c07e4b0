import Verif.Lemmas.RopeOps
namespace Verif

/-- Number of characters before the text following `L`. -/
def charsBefore (L : List Para) : Nat := (L.map fun p => p.2.length + 1).sum

theorem length_preText (L : List Para) : (preText L).length = charsBefore L := by
  induction L with
  | nil => rfl
  | cons p L ih => simp [charsBefore] at ih ⊢; omega

theorem Focus.slice {st : RopeSt} {L R : List Para} {m c} (f : Focus st L m c R) :
    sliceBytes st.rope (span L) (span L + utf8Len c) = some c := by
  have := sliceBytes_append (preText L) c (postText R)
  rw [utf8Len_preText] at this
  rw [f.rope, ← List.append_assoc]; exact this

theorem Focus.charAt {st : RopeSt} {L R : List Para} {m a b} (f : Focus st L m (a ++ b) R) :
    byteToChar st.rope (span L + utf8Len a) = some (charsBefore L + a.length) := by
  have := byteToChar_append (preText L ++ a) (b ++ postText R)
  rw [utf8Len_append, utf8Len_preText, List.length_append, length_preText] at this
  rw [f.rope, ← this]; simp

theorem Focus.charStart {st : RopeSt} {L R : List Para} {m c} (f : Focus st L m c R) :
    byteToChar st.rope (span L) = some (charsBefore L) := by
  have := Focus.charAt (a := []) (b := c) (by simpa using f); simpa using this

theorem Focus.charEnd {st : RopeSt} {L R : List Para} {m c} (f : Focus st L m c R) :
    byteToChar st.rope (span L + utf8Len c) = some (charsBefore L + c.length) := by
  have := Focus.charAt (a := c) (b := []) (by simpa using f); exact this

theorem Focus.byteAt {st : RopeSt} {L R : List Para} {m a b} (f : Focus st L m (a ++ b) R) :
    charToByte st.rope (charsBefore L + a.length) = some (span L + utf8Len a) := by
  have := charToByte_append (preText L ++ a) (b ++ postText R)
  rw [utf8Len_append, utf8Len_preText, List.length_append, length_preText] at this
  rw [f.rope, ← this]; simp

theorem blockContent_repr {st : RopeSt} {ps : List Para} {id : Nat} {c : List Char}
    (h : Repr st ps) (hm : (.block id, c) ∈ ps) : blockContent st id = some c := by
  obtain ⟨L, R, rfl⟩ := List.append_of_mem hm
  have f := h.focus
  unfold blockContent
  rw [f.rangeS]
  simp only [Option.bind_some]
  rw [f.content, f.slice]

theorem Repr.pos_none {st : RopeSt} {ps : List Para} {m : Marker} (h : Repr st ps)
    (hm : m ∉ ps.map Prod.fst) : st.idx.pos m = none := by
  apply h.cache.pos_none
  rwa [h.starts, layout_keys]

theorem blockContent_absent {st : RopeSt} {ps : List Para} {id : Nat}
    (h : Repr st ps) (hm : .block id ∉ ps.map Prod.fst) : blockContent st id = some [] := by
  simp [blockContent, Index.rangeWithSuccessor, h.pos_none hm]

theorem blockCharLength_repr {st : RopeSt} {ps : List Para} {id : Nat} {c : List Char}
    (h : Repr st ps) (hm : (.block id, c) ∈ ps) : blockCharLength st id = some c.length := by
  obtain ⟨L, R, rfl⟩ := List.append_of_mem hm
  have f := h.focus
  unfold blockCharLength
  rw [f.rangeS]
  simp only [Option.bind_some]
  rw [f.content, f.charStart, f.charEnd]
  simp

theorem blockDocumentPosition_repr {st : RopeSt} {L R : List Para} {id : Nat} {c : List Char}
    (s : Int) (h : Repr st (L ++ (.block id, c) :: R)) :
    blockDocumentPosition st id s = some (charsBefore L : Int) := by
  have f := h.focus
  unfold blockDocumentPosition
  rw [f.rangeOf]
  simp [f.charStart]

theorem blockCharToByte_repr {st : RopeSt} {ps : List Para} {id : Nat} {a b : List Char}
    (h : Repr st ps) (hm : (.block id, a ++ b) ∈ ps) :
    blockCharToByteInBlock st id a.length = some (utf8Len a, utf8Len (a ++ b)) := by
  obtain ⟨L, R, rfl⟩ := List.append_of_mem hm
  have f := h.focus
  unfold blockCharToByteInBlock
  rw [f.rangeS]
  simp only [Option.bind_some]
  rw [f.content, f.charStart, f.charEnd, if_neg (by omega)]
  simp only [Option.bind_some]
  rw [if_neg (by omega)]
  have : charsBefore L + min a.length (charsBefore L + (a ++ b).length - charsBefore L) =
      charsBefore L + a.length := by simp
  rw [this, f.byteAt]
  simp

theorem blockCharToByte_clamp {st : RopeSt} {ps : List Para} {id : Nat} {c : List Char} {n : Nat}
    (h : Repr st ps) (hm : (.block id, c) ∈ ps) (hn : c.length ≤ n) :
    blockCharToByteInBlock st id n = some (utf8Len c, utf8Len c) := by
  obtain ⟨L, R, rfl⟩ := List.append_of_mem hm
  have f := h.focus
  unfold blockCharToByteInBlock
  rw [f.rangeS]
  simp only [Option.bind_some]
  rw [f.content, f.charStart, f.charEnd, if_neg (by omega)]
  simp only [Option.bind_some]
  rw [if_neg (by omega)]
  have : charsBefore L + min n (charsBefore L + c.length - charsBefore L) =
      charsBefore L + c.length := by omega
  have g : Focus st L (.block id) (c ++ []) R := by simpa using f
  rw [this, g.byteAt]
  simp

theorem lowerBound_split {x : Index} {A B : List (Marker × Nat)} {b : Nat}
    (hx : x.entries = A ++ B) (hA : ∀ e ∈ A, e.2 < b) (hB : ∀ e, B.head? = some e → b ≤ e.2) :
    x.lowerBound b = A.length := by
  unfold Index.lowerBound
  rw [hx, takeWhile_lt_append hA hB]

/-- On a sorted index, `marker_at_byte` finds the last entry starting at or before the byte. -/
theorem markerAtByte_of_split {x : Index} {A B : List (Marker × Nat)} {m : Marker} {s b : Nat}
    (hs : x.entries.Pairwise fun a b => a.2 < b.2) (hx : x.entries = A ++ (m, s) :: B)
    (hsb : s ≤ b) (hB : ∀ e ∈ B, b < e.2) (hb : b ≤ x.total) : x.markerAtByte b = some m := by
  have hA : ∀ e ∈ A, e.2 < s := by
    rw [hx, List.pairwise_append] at hs
    intro e he
    exact hs.2.2 e he (m, s) (by simp)
  unfold Index.markerAtByte
  rw [if_neg (by simp [hx]), if_neg (by omega)]
  by_cases heq : s = b
  · subst heq
    rw [lowerBound_split (A := A) (B := (m, s) :: B) hx hA (by simp)]
    have : x.entries[A.length]? = some (m, s) := by rw [hx]; simp
    simp [this]
  · rw [lowerBound_split (A := A ++ [(m, s)]) (B := B) (by simp [hx])
      (by
        intro e he
        simp only [List.mem_append, List.mem_singleton] at he
        rcases he with he | rfl
        · have := hA e he; omega
        · simp; omega)
      (by intro e he; have := hB e (List.mem_of_mem_head? he); omega)]
    have h1 : x.entries[(A ++ [(m, s)]).length]? = B[0]? := by
      rw [hx, List.getElem?_append_right (by simp)]
      simp
    have h2 : x.entries[(A ++ [(m, s)]).length - 1]? = some (m, s) := by rw [hx]; simp
    simp only [h1, h2]
    cases B with
    | nil => simp
    | cons e B =>
      have := hB e (by simp)
      simp only [List.getElem?_cons_zero]
      rw [if_neg (by omega)]
      simp

theorem layout_sorted (o : Nat) (ps : List Para) : (layout o ps).Pairwise fun a b => a.2 < b.2 := by
  induction ps generalizing o with
  | nil => simp [layout]
  | cons p ps ih =>
    obtain ⟨m, c⟩ := p
    simp only [layout, List.pairwise_cons]
    refine ⟨?_, ih _⟩
    intro e he
    have := layout_lt he
    omega

theorem findBlock_repr {st : RopeSt} {L R : List Para} {id : Nat} {a b : List Char}
    (h : Repr st (L ++ (.block id, a ++ b) :: R))
    (hb : ∀ p ∈ L ++ (.block id, a ++ b) :: R, p.1.isTable = false) :
    findBlockAtCharPosition st (L ++ (.block id, a ++ b) :: R).length
        ((charsBefore L + a.length : Nat) : Int) =
      some (some (id, (a.length : Int), (charsBefore L : Int))) := by
  have f := h.focus
  unfold findBlockAtCharPosition
  have hanc : st.idx.anchors = 0 := by
    rw [h.cache.anchors, anchors_eq_keys, h.starts, layout_keys]
    rw [List.length_eq_zero_iff, List.filter_eq_nil_iff]
    intro m hm
    obtain ⟨p, hp, rfl⟩ := List.mem_map.mp hm
    simp [hb p hp]
  rw [if_neg (by omega)]
  rw [if_neg (by rw [h.starts]; simp)]
  have hlen : charsBefore L + a.length ≤ st.rope.length := by
    rw [f.rope]; simp [length_preText]
  have hp : (max 0 (min ((charsBefore L + a.length : Nat) : Int) (st.rope.length : Int))).toNat =
      charsBefore L + a.length := by omega
  simp only [hp, f.byteAt, Option.bind_some]
  have hma : st.idx.markerAtByte (span L + utf8Len a) = some (.block id) := by
    refine markerAtByte_of_split ?_ f.entries (by omega) ?_ (by rw [f.total]; simp; omega)
    · rw [h.starts]; exact layout_sorted _ _
    · intro e he
      have := layout_lt he
      simp at this; omega
  simp only [hma, Option.bind_some, Marker.asBlock, f.rangeS, f.content]
  have hmin : min (span L + utf8Len a) (span L + utf8Len (a ++ b)) = span L + utf8Len a := by
    simp
  rw [hmin, f.charStart]
  simp [f.charAt]
  omega

/-- Every character position of the text lies in exactly one paragraph (its end included). -/
theorem position_cover (ps : List Para) (hne : ps ≠ []) (p : Nat)
    (hp : p ≤ (joinNl (ps.map Prod.snd)).length) :
    ∃ L m a b R, ps = L ++ (m, a ++ b) :: R ∧ p = charsBefore L + a.length := by
  induction ps generalizing p with
  | nil => exact absurd rfl hne
  | cons q ps ih =>
    obtain ⟨m, c⟩ := q
    by_cases hc : p ≤ c.length
    · exact ⟨[], m, c.take p, c.drop p, ps, by simp, by simp [charsBefore]; omega⟩
    · cases ps with
      | nil => simp [joinNl] at hp; omega
      | cons q' ps' =>
        have hl : (joinNl (((m, c) :: q' :: ps').map Prod.snd)).length =
            c.length + 1 + (joinNl ((q' :: ps').map Prod.snd)).length := by
          simp [joinNl]; omega
        rw [hl] at hp
        obtain ⟨L, m', a, b, R, h1, h2⟩ := ih (by simp) (p - c.length - 1) (by omega)
        refine ⟨(m, c) :: L, m', a, b, R, by simp [h1], ?_⟩
        simp [charsBefore] at h2 ⊢
        omega

/-- A store built directly from a list of paragraphs. -/
def mkSt (ps : List Para) : RopeSt :=
  ⟨joinNl (ps.map Prod.snd),
    (⟨layout 0 ps, utf8Len (joinNl (ps.map Prod.snd)), fun _ => none, 0⟩ : Index).rebuild⟩

theorem mkSt_repr {ps : List Para} (hnd : (ps.map Prod.fst).Nodup)
    (ht : ∀ p ∈ ps, p.1.isTable = true → p.2 = [objChar]) : Repr (mkSt ps) ps :=
  ⟨rfl, rfl, rfl, cacheOk_rebuild (by rw [layout_keys]; exact hnd), ht⟩

end Verif

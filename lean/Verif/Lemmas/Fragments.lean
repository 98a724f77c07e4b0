import Verif.Lemmas.FormatRuns
import Verif.Lemmas.Text
import Verif.Spec.Stream
namespace Verif
variable {F : Type}

theorem isBoundary_split {cs : List Char} {n : Nat} (h : IsBoundary cs n) :
    ∃ a b, splitAtByte cs n = some (a, b) := by
  obtain ⟨a, b, h1, h2⟩ := h
  exact ⟨a, b, splitAtByte_eq_some_iff.mpr ⟨h1, h2⟩⟩

theorem reading_image (f : Nat → F) (pos : Nat) (cs : List Char) (i : Img F) (imgs : List (Img F))
    (h : i.off ≤ pos) : reading f pos cs (i :: imgs) = .image i :: reading f pos cs imgs := by
  cases cs with
  | nil => simp [reading]
  | cons c cs => simp [reading, h]

theorem reading_text (f : Nat → F) (fmt : F) (mid : List Char) (pos : Nat) (suf : List Char)
    (imgs : List (Img F)) (hi : ∀ i ∈ imgs, pos + utf8Len mid ≤ i.off)
    (hf : ∀ x, pos ≤ x → x < pos + utf8Len mid → f x = fmt) :
    reading f pos (mid ++ suf) imgs =
      mid.map (.char · fmt) ++ reading f (pos + utf8Len mid) suf imgs := by
  induction mid generalizing pos with
  | nil => simp
  | cons c mid ih =>
    have hp := utf8Size_pos c
    simp only [utf8Len_cons] at hi hf
    have h1 : imgs.takeWhile (fun i => decide (i.off ≤ pos)) = [] := by
      cases imgs with
      | nil => rfl
      | cons i is =>
        have := hi i (by simp)
        rw [List.takeWhile_cons, if_neg (by simp; omega)]
    have h2 : imgs.dropWhile (fun i => decide (i.off ≤ pos)) = imgs := by
      cases imgs with
      | nil => rfl
      | cons i is =>
        have := hi i (by simp)
        rw [List.dropWhile_cons, if_neg (by simp; omega)]
    simp only [List.cons_append, reading, h1, h2, List.map_nil, List.nil_append, List.map_cons,
      utf8Len_cons]
    rw [ih (pos + c.utf8Size) (fun i hm => by have := hi i hm; omega)
      (fun x h1 h2 => hf x (by omega) (by omega)), hf pos (by omega) (by omega)]
    congr 2
    rw [Nat.add_assoc]

@[simp] theorem fragItems_append (a b : List (Frag F)) :
    fragItems (a ++ b) = fragItems a ++ fragItems b := by simp [fragItems]

@[simp] theorem segItems_append (a b : List (Segment F)) :
    segItems (a ++ b) = segItems a ++ segItems b := by simp [segItems]

/-- Offsets and lengths reported by the fragments. -/
def FragOffsetsOk (frags : List (Frag F)) : Prop :=
  ∀ a b cs fmt o n by_, frags = a ++ .text cs fmt o n by_ :: b →
    o = (fragItems a).length ∧ n = cs.length

def FragImageOffsetsOk (frags : List (Frag F)) : Prop :=
  ∀ a b i o, frags = a ++ .image i o :: b → o = (fragItems a).length

theorem append_singleton_eq_append_cons {α : Type _} {l a b : List α} {x y : α}
    (h : l ++ [x] = a ++ y :: b) : (b = [] ∧ l = a ∧ x = y) ∨ ∃ b', b = b' ++ [x] ∧ l = a ++ y :: b' := by
  rcases List.eq_nil_or_concat b with rfl | ⟨b', z, rfl⟩
  · left
    have := List.append_inj' h rfl
    simp at this
    exact ⟨rfl, this.1, this.2⟩
  · right
    rw [List.concat_eq_append, ← List.cons_append, ← List.append_assoc] at h
    have := List.append_inj' h rfl
    simp at this
    exact ⟨b', by simp [this.2], this.1⟩

structure FragInv (plain : List Char) (f : Nat → F) (imgs0 : List (Img F)) (st : FragSt F)
    (imgs : List (Img F)) : Prop where
  split : ∃ pre suf, splitAtByte plain st.cur = some (pre, suf) ∧
    fragItems st.out ++ reading f st.cur suf imgs = reading f 0 plain imgs0
  chars : st.chars = (fragItems st.out).length
  offs : FragOffsetsOk st.out
  ioffs : FragImageOffsetsOk st.out

theorem fragEmitText_inv {plain : List Char} {f : Nat → F} {imgs0 imgs : List (Img F)}
    {st : FragSt F} (h : FragInv plain f imgs0 st imgs) {b : Nat} {fmt : F} (hb : st.cur ≤ b)
    (hbd : IsBoundary plain b) (hi : ∀ i ∈ imgs, b ≤ i.off)
    (hf : ∀ x, st.cur ≤ x → x < b → f x = fmt) :
    ∃ st', fragEmitText plain fmt st.cur b st = some st' ∧ st'.cur = b ∧
      FragInv plain f imgs0 st' imgs := by
  unfold fragEmitText
  split
  · exact ⟨st, rfl, by omega, h⟩
  · obtain ⟨pre, suf, hs, hr⟩ := h.split
    obtain ⟨x, y, hxy⟩ := isBoundary_split hbd
    obtain ⟨mid, h1, h2, h3⟩ := splitAtByte_sub hb hs hxy
    have hsl : sliceBytes plain st.cur b = some mid := by
      rw [sliceBytes_eq_some_iff]
      have := splitAtByte_some hs
      exact ⟨pre, y, by rw [this.1, h1]; simp, this.2, by omega⟩
    rw [hsl]
    refine ⟨_, rfl, rfl, ⟨⟨x, y, hxy, ?_⟩, ?_, ?_, ?_⟩⟩
    · rw [← hr, h1, reading_text f fmt mid st.cur y imgs
        (fun i hm => by have := hi i hm; omega) (fun z hz1 hz2 => hf z hz1 (by omega))]
      have : st.cur + utf8Len mid = b := by omega
      simp [fragItems, this]
    · simp only [fragItems_append, List.length_append, h.chars]
      simp [fragItems]
    · intro a b' cs fm o n byt heq
      rcases append_singleton_eq_append_cons heq with ⟨_, rfl, hx⟩ | ⟨b'', _, hl⟩
      · simp only [Frag.text.injEq] at hx
        obtain ⟨rfl, _, rfl, rfl, _⟩ := hx
        exact ⟨h.chars, rfl⟩
      · exact h.offs a b'' cs fm o n byt hl
    · intro a b' i o heq
      rcases append_singleton_eq_append_cons heq with ⟨_, rfl, hx⟩ | ⟨b'', _, hl⟩
      · simp at hx
      · exact h.ioffs a b'' i o hl

theorem fragEmitImage_inv {plain : List Char} {f : Nat → F} {imgs0 imgs : List (Img F)}
    {st : FragSt F} {i : Img F} (h : FragInv plain f imgs0 st (i :: imgs)) (hi : i.off = st.cur) :
    FragInv plain f imgs0 (fragEmitImage i st) imgs := by
  obtain ⟨pre, suf, hs, hr⟩ := h.split
  refine ⟨⟨pre, suf, hs, ?_⟩, ?_, ?_, ?_⟩
  · rw [← hr, reading_image _ _ _ _ _ (by omega)]
    simp [fragEmitImage, fragItems]
  · simp only [fragEmitImage, fragItems_append, List.length_append, h.chars]
    simp [fragItems]
  · intro a b' cs fm o n byt heq
    rcases append_singleton_eq_append_cons heq with ⟨_, rfl, hx⟩ | ⟨b'', _, hl⟩
    · simp at hx
    · exact h.offs a b'' cs fm o n byt hl
  · intro a b' j o heq
    rcases append_singleton_eq_append_cons heq with ⟨_, rfl, hx⟩ | ⟨b'', _, hl⟩
    · simp only [Frag.image.injEq] at hx
      obtain ⟨rfl, rfl⟩ := hx
      exact h.chars
    · exact h.ioffs a b'' j o hl

theorem fragImages_inv {plain : List Char} {f : Nat → F} {imgs0 : List (Img F)} (d : F) (r : Run F)
    (hrb : IsBoundary plain r.bs)
    (hfr : ∀ x, r.bs ≤ x → x < r.be → f x = r.fmt)
    (imgs : List (Img F)) (rc : Nat) (st : FragSt F)
    (h : FragInv plain f imgs0 st imgs)
    (hs : imgs.Pairwise (·.off ≤ ·.off)) (hib : ∀ i ∈ imgs, IsBoundary plain i.off)
    (hic : ∀ i ∈ imgs, st.cur ≤ i.off)
    (hrc : rc = r.bs ∨ st.cur = rc) (h1 : r.bs ≤ rc) (h2 : rc ≤ r.be) (h3 : st.cur ≤ rc)
    (hfd : ∀ x, st.cur ≤ x → x < r.bs → f x = d) :
    ∃ st' rc' imgs', fragImages plain d r imgs rc st = some (st', rc', imgs') ∧
      FragInv plain f imgs0 st' imgs' ∧ (rc' = r.bs ∨ st'.cur = rc') ∧ r.bs ≤ rc' ∧ rc' ≤ r.be ∧
      st'.cur ≤ rc' ∧ (∀ x, st'.cur ≤ x → x < r.bs → f x = d) ∧ (∀ i ∈ imgs', r.be < i.off) ∧
      imgs'.Pairwise (·.off ≤ ·.off) ∧ (∀ i ∈ imgs', IsBoundary plain i.off) := by
  induction imgs generalizing rc st with
  | nil => exact ⟨st, rc, [], rfl, h, hrc, h1, h2, h3, hfd, by simp, by simp, by simp⟩
  | cons i is ih =>
    simp only [List.pairwise_cons] at hs
    have hi0 := hic i (by simp)
    unfold fragImages
    split
    · rename_i hlt
      obtain ⟨st', he, hc, hinv⟩ := fragEmitText_inv (fmt := d) h hi0 (hib i (by simp))
        (by intro j hj; simp at hj; rcases hj with rfl | hj; · omega
            · exact hs.1 j hj)
        (fun x hx1 hx2 => hfd x hx1 (by omega))
      rw [he]
      simp only [Option.bind_some]
      have hinv' := fragEmitImage_inv hinv hc.symm
      refine ih rc _ hinv' hs.2 (fun j hj => hib j (by simp [hj])) ?_ ?_ h1 h2 ?_ ?_
      · intro j hj; simp only [fragEmitImage]; rw [hc]; exact hs.1 j hj
      · left
        rcases hrc with hrc | hrc
        · exact hrc
        · omega
      · simp only [fragEmitImage]; omega
      · intro x hx1 hx2; simp only [fragEmitImage] at hx1; exact hfd x (by omega) hx2
    · rename_i hnlt
      split
      · rename_i hle
        have hrcle : rc ≤ i.off := by
          rcases hrc with hrc | hrc <;> omega
        have hall : ∀ j ∈ i :: is, i.off ≤ j.off := by
          intro j hj; simp at hj; rcases hj with rfl | hj
          · omega
          · exact hs.1 j hj
        have hbrc : IsBoundary plain rc := by
          rcases hrc with hrc | hrc
          · rw [hrc]; exact hrb
          · obtain ⟨pre, suf, hs', _⟩ := h.split
            rw [hrc] at hs'
            exact ⟨pre, suf, splitAtByte_some hs'⟩
        obtain ⟨st1, he1, hc1, hinv1⟩ := fragEmitText_inv (fmt := d) h h3 hbrc
          (fun j hj => by have := hall j hj; omega)
          (fun x hx1 hx2 => by
            rcases hrc with hrc | hrc
            · exact hfd x hx1 (by omega)
            · omega)
        rw [he1]
        simp only [Option.bind_some]
        obtain ⟨st2, he2, hc2, hinv2⟩ := fragEmitText_inv (fmt := r.fmt) hinv1 (b := i.off)
          (by omega) (hib i (by simp)) hall (fun x hx1 hx2 => hfr x (by omega) (by omega))
        rw [hc1] at he2
        rw [he2]
        simp only [Option.bind_some]
        have hinv' := fragEmitImage_inv hinv2 hc2.symm
        have hst : { fragEmitImage i st2 with cur := i.off } = fragEmitImage i st2 := by
          simp only [fragEmitImage, ← hc2]
        rw [hst]
        have hcur : (fragEmitImage i st2).cur = i.off := hc2
        refine ih i.off _ hinv' hs.2 (fun j hj => hib j (by simp [hj])) ?_ (Or.inr hcur)
          (by omega) hle (by omega) ?_
        · intro j hj; rw [hcur]; exact hs.1 j hj
        · intro x hx1 hx2; omega
      · exact ⟨st, rc, i :: is, rfl, h, hrc, h1, h2, h3, hfd,
          by intro j hj; simp at hj; rcases hj with rfl | hj
             · omega
             · have := hs.1 j hj; omega,
          by simpa using hs, hib⟩

theorem fragRuns_inv {plain : List Char} {f : Nat → F} {imgs0 : List (Img F)} (d : F)
    (runs : List (Run F)) (imgs : List (Img F)) (st : FragSt F)
    (h : FragInv plain f imgs0 st imgs) (ho : Ordered runs)
    (hrb : ∀ r ∈ runs, IsBoundary plain r.bs ∧ IsBoundary plain r.be)
    (hs : imgs.Pairwise (·.off ≤ ·.off)) (hib : ∀ i ∈ imgs, IsBoundary plain i.off)
    (hic : ∀ i ∈ imgs, st.cur ≤ i.off) (hrc : ∀ r ∈ runs, st.cur ≤ r.bs)
    (hf : ∀ x, st.cur ≤ x → f x = shownFmt d runs x) :
    ∃ st' imgs', fragRuns plain d runs imgs st = some (st', imgs') ∧
      FragInv plain f imgs0 st' imgs' ∧ (∀ x, st'.cur ≤ x → f x = d) ∧
      (∀ i ∈ imgs', st'.cur ≤ i.off) ∧
      imgs'.Pairwise (·.off ≤ ·.off) ∧ (∀ i ∈ imgs', IsBoundary plain i.off) := by
  induction runs generalizing imgs st with
  | nil => exact ⟨st, imgs, rfl, h, by simpa [shownFmt, fmtAt] using hf, hic, hs, hib⟩
  | cons r rs ih =>
    rw [ordered_cons] at ho
    have hr0 := hrc r (by simp)
    have hfr : ∀ x, r.bs ≤ x → x < r.be → f x = r.fmt := by
      intro x hx1 hx2
      rw [hf x (by omega), shownFmt, fmtAt_cons, if_pos ⟨hx1, hx2⟩]; rfl
    have hfd : ∀ x, st.cur ≤ x → x < r.bs → f x = d := by
      intro x hx1 hx2
      rw [hf x hx1, shownFmt, fmtAt_cons, if_neg (by omega),
        fmtAt_eq_none (fun r' hr' => by have := ho.2.1 r' hr'; omega)]
      rfl
    obtain ⟨st1, rc1, imgs1, he, hinv, hor, ha, hb, hc, hd, hgt, hs1, hib1⟩ :=
      fragImages_inv d r (hrb r (by simp)).1 hfr imgs r.bs st h hs hib hic
        (Or.inl rfl) (Nat.le_refl _) (Nat.le_of_lt ho.1) hr0 hfd
    unfold fragRuns
    rw [he]
    simp only [Option.bind_some]
    have hbrc : IsBoundary plain rc1 := by
      rcases hor with hor | hor
      · rw [hor]; exact (hrb r (by simp)).1
      · obtain ⟨pre, suf, hs', _⟩ := hinv.split
        rw [hor] at hs'
        exact ⟨pre, suf, splitAtByte_some hs'⟩
    obtain ⟨st2, he2, hc2, hinv2⟩ := fragEmitText_inv (fmt := d) hinv hc hbrc
      (fun j hj => by have := hgt j hj; omega)
      (fun x hx1 hx2 => by
        rcases hor with hor | hor
        · exact hd x hx1 (by omega)
        · omega)
    rw [he2]
    simp only [Option.bind_some]
    obtain ⟨st3, he3, hc3, hinv3⟩ := fragEmitText_inv (fmt := r.fmt) hinv2 (b := r.be)
      (by omega) (hrb r (by simp)).2 (fun j hj => by have := hgt j hj; omega)
      (fun x hx1 hx2 => hfr x (by omega) (by omega))
    rw [hc2] at he3
    rw [he3]
    simp only [Option.bind_some]
    refine ih imgs1 st3 hinv3 ho.2.2 (fun r' hr' => hrb r' (by simp [hr'])) hs1 hib1 ?_ ?_ ?_
    · intro i hi; have := hgt i hi; omega
    · intro r' hr'; have := ho.2.1 r' hr'; omega
    · intro x hx
      rw [hf x (by omega), shownFmt, shownFmt, fmtAt_cons, if_neg (by omega)]

theorem fragTailImages_inv {plain : List Char} {f : Nat → F} {imgs0 : List (Img F)} (d : F)
    (imgs : List (Img F)) (st : FragSt F)
    (h : FragInv plain f imgs0 st imgs) 
    (hs : imgs.Pairwise (·.off ≤ ·.off)) (hib : ∀ i ∈ imgs, IsBoundary plain i.off)
    (hic : ∀ i ∈ imgs, st.cur ≤ i.off) (hf : ∀ x, st.cur ≤ x → f x = d) :
    ∃ st', fragTailImages plain d imgs st = some st' ∧
      FragInv plain f imgs0 st' [] ∧ (∀ x, st'.cur ≤ x → f x = d) := by
  induction imgs generalizing st with
  | nil => exact ⟨st, rfl, h, hf⟩
  | cons i is ih =>
    simp only [List.pairwise_cons] at hs
    unfold fragTailImages
    obtain ⟨st1, he1, hc1, hinv1⟩ := fragEmitText_inv (fmt := d) h (hic i (by simp))
      (hib i (by simp))
      (by intro j hj; simp at hj; rcases hj with rfl | hj
          · omega
          · exact hs.1 j hj)
      (fun x hx1 _ => hf x hx1)
    rw [he1]
    simp only [Option.bind_some]
    have hinv' := fragEmitImage_inv hinv1 hc1.symm
    have hcur : (fragEmitImage i st1).cur = i.off := hc1
    refine ih _ hinv' hs.2 (fun j hj => hib j (by simp [hj])) ?_ ?_
    · intro j hj; rw [hcur]; exact hs.1 j hj
    · intro x hx; exact hf x (by have := hic i (by simp); omega)

theorem isBoundary_le {cs : List Char} {n : Nat} (h : IsBoundary cs n) : n ≤ utf8Len cs := by
  obtain ⟨a, b, rfl, rfl⟩ := h; simp

theorem buildRawFragments_spec (d : F) (plain : List Char) (runs : List (Run F))
    (imgs : List (Img F)) (ho : Ordered runs) (hs : imgs.Pairwise (·.off ≤ ·.off))
    (ha : Aligned plain runs imgs) :
    ∃ frags, buildRawFragments d plain runs imgs = some frags ∧
      fragItems frags = reading (shownFmt d runs) 0 plain imgs ∧
      FragOffsetsOk frags ∧ FragImageOffsetsOk frags := by
  have h0 : FragInv plain (shownFmt d runs) imgs ⟨[], 0, 0⟩ imgs :=
    ⟨⟨[], plain, by simp, by simp [fragItems]⟩, by simp [fragItems],
      by intro a b _ _ _ _ _ h; simp at h, by intro a b _ _ h; simp at h⟩
  obtain ⟨st1, imgs1, he1, hinv1, hf1, hic1, hs1, hib1⟩ :=
    fragRuns_inv d runs imgs ⟨[], 0, 0⟩ h0 ho ha.runs hs ha.imgs (by simp) (by simp) (fun x _ => rfl)
  obtain ⟨st2, he2, hinv2, hf2⟩ := fragTailImages_inv d imgs1 st1 hinv1 hs1 hib1 hic1 hf1
  have hle : st2.cur ≤ utf8Len plain := by
    obtain ⟨pre, suf, h, _⟩ := hinv2.split
    exact splitAtByte_le h
  obtain ⟨st3, he3, hc3, hinv3⟩ := fragEmitText_inv (fmt := d) hinv2 hle
    ⟨plain, [], by simp⟩ (by simp) (fun x hx _ => hf2 x hx)
  refine ⟨st3.out, ?_, ?_, hinv3.offs, hinv3.ioffs⟩
  · simp [buildRawFragments, he1, he2, he3]
  · obtain ⟨pre, suf, h, hr⟩ := hinv3.split
    rw [hc3, splitAtByte_len] at h
    simp at h
    rw [h.2] at hr
    simpa [reading] using hr

/-! ### `inline_segments_view` when no image lies in a span -/

structure SegInv (plain : List Char) (f : Nat → F) (imgs0 : List (Img F)) (out : List (Segment F))
    (cur : Nat) (imgs : List (Img F)) : Prop where
  split : ∃ pre suf, splitAtByte plain cur = some (pre, suf) ∧
    segItems out ++ reading f cur suf imgs = reading f 0 plain imgs0

theorem segEmitText_inv {plain : List Char} {f : Nat → F} {imgs0 imgs : List (Img F)}
    {out : List (Segment F)} {cur : Nat} (h : SegInv plain f imgs0 out cur imgs) {b : Nat} {fmt : F}
    (hb : cur ≤ b) (hbd : IsBoundary plain b) (hi : ∀ i ∈ imgs, b ≤ i.off)
    (hf : ∀ x, cur ≤ x → x < b → f x = fmt) :
    ∃ out', segEmitText plain out cur b fmt = some out' ∧ SegInv plain f imgs0 out' b imgs := by
  unfold segEmitText
  split
  · have : cur = b := by omega
    subst this
    exact ⟨out, rfl, h⟩
  · obtain ⟨pre, suf, hs, hr⟩ := h.split
    obtain ⟨x, y, hxy⟩ := isBoundary_split hbd
    obtain ⟨mid, h1, h2, h3⟩ := splitAtByte_sub hb hs hxy
    have hsl : sliceBytes plain cur b = some mid := by
      rw [sliceBytes_eq_some_iff]
      have := splitAtByte_some hs
      exact ⟨pre, y, by rw [this.1, h1]; simp, this.2, by omega⟩
    rw [hsl]
    refine ⟨_, rfl, ⟨⟨x, y, hxy, ?_⟩⟩⟩
    rw [← hr, h1, reading_text f fmt mid cur y imgs
      (fun i hm => by have := hi i hm; omega) (fun z hz1 hz2 => hf z hz1 (by omega))]
    have : cur + utf8Len mid = b := by omega
    simp [segItems, this]

theorem segEmitImage_inv {plain : List Char} {f : Nat → F} {imgs0 imgs : List (Img F)}
    {out : List (Segment F)} {i : Img F} (h : SegInv plain f imgs0 out i.off (i :: imgs)) :
    SegInv plain f imgs0 (out ++ [.image i]) i.off imgs := by
  obtain ⟨pre, suf, hs, hr⟩ := h.split
  refine ⟨⟨pre, suf, hs, ?_⟩⟩
  rw [← hr, reading_image _ _ _ _ _ (by omega)]
  simp [segItems]

theorem segImagesBefore_inv {plain : List Char} {f : Nat → F} {imgs0 : List (Img F)} (d : F)
    (rs : Nat) (imgs : List (Img F)) (out : List (Segment F)) (cur : Nat)
    (h : SegInv plain f imgs0 out cur imgs)
    (hs : imgs.Pairwise (·.off ≤ ·.off)) (hib : ∀ i ∈ imgs, IsBoundary plain i.off)
    (hic : ∀ i ∈ imgs, cur ≤ i.off) (h3 : cur ≤ rs)
    (hfd : ∀ x, cur ≤ x → x < rs → f x = d) :
    ∃ out' cur' imgs', segImagesBefore plain d rs imgs out cur = some (out', cur', imgs') ∧
      SegInv plain f imgs0 out' cur' imgs' ∧ cur' ≤ rs ∧ cur ≤ cur' ∧
      (∀ i ∈ imgs', rs ≤ i.off) ∧ imgs'.Pairwise (·.off ≤ ·.off) ∧ (∀ i ∈ imgs', i ∈ imgs) := by
  induction imgs generalizing out cur with
  | nil => exact ⟨out, cur, [], rfl, h, h3, Nat.le_refl _, by simp, by simp, by simp⟩
  | cons i is ih =>
    simp only [List.pairwise_cons] at hs
    have hi0 := hic i (by simp)
    unfold segImagesBefore
    split
    · obtain ⟨out1, he, hinv⟩ := segEmitText_inv (fmt := d) h hi0 (hib i (by simp))
        (by intro j hj; simp at hj; rcases hj with rfl | hj
            · omega
            · exact hs.1 j hj)
        (fun x hx1 hx2 => hfd x hx1 (by omega))
      rw [he]
      simp only [Option.bind_some]
      obtain ⟨o', c', i', h1, h2, h3', h4, h5, h6, h7⟩ := ih _ i.off (segEmitImage_inv hinv) hs.2
        (fun j hj => hib j (by simp [hj])) hs.1 (by omega)
        (fun x hx1 hx2 => hfd x (by omega) hx2)
      exact ⟨o', c', i', h1, h2, h3', by omega, h5, h6, fun j hj => by simp [h7 j hj]⟩
    · refine ⟨out, cur, i :: is, rfl, h, h3, Nat.le_refl _, ?_, by simpa using hs, by simp⟩
      intro j hj; simp at hj; rcases hj with rfl | hj
      · omega
      · have := hs.1 j hj; omega

theorem segRuns_inv {plain : List Char} {f : Nat → F} {imgs0 : List (Img F)} (d : F)
    (runs : List (Run F)) (imgs : List (Img F)) (out : List (Segment F)) (cur : Nat)
    (h : SegInv plain f imgs0 out cur imgs) (ho : Ordered runs)
    (hrb : ∀ r ∈ runs, IsBoundary plain r.bs ∧ IsBoundary plain r.be)
    (hs : imgs.Pairwise (·.off ≤ ·.off)) (hib : ∀ i ∈ imgs, IsBoundary plain i.off)
    (hic : ∀ i ∈ imgs, cur ≤ i.off) (hrc : ∀ r ∈ runs, cur ≤ r.bs)
    (hout : ∀ i ∈ imgs, ∀ r ∈ runs, ¬ (r.bs ≤ i.off ∧ i.off < r.be))
    (hf : ∀ x, cur ≤ x → f x = shownFmt d runs x) :
    ∃ out' cur' imgs', segRuns plain d runs imgs out cur = some (out', cur', imgs') ∧
      SegInv plain f imgs0 out' cur' imgs' ∧ (∀ x, cur' ≤ x → f x = d) ∧
      (∀ i ∈ imgs', cur' ≤ i.off) ∧
      imgs'.Pairwise (·.off ≤ ·.off) ∧ (∀ i ∈ imgs', IsBoundary plain i.off) := by
  induction runs generalizing imgs out cur with
  | nil => exact ⟨out, cur, imgs, rfl, h, by simpa [shownFmt, fmtAt] using hf, hic, hs, hib⟩
  | cons r rs ih =>
    rw [ordered_cons] at ho
    have hr0 := hrc r (by simp)
    have hfr : ∀ x, r.bs ≤ x → x < r.be → f x = r.fmt := by
      intro x hx1 hx2
      rw [hf x (by omega), shownFmt, fmtAt_cons, if_pos ⟨hx1, hx2⟩]; rfl
    have hfd : ∀ x, cur ≤ x → x < r.bs → f x = d := by
      intro x hx1 hx2
      rw [hf x hx1, shownFmt, fmtAt_cons, if_neg (by omega),
        fmtAt_eq_none (fun r' hr' => by have := ho.2.1 r' hr'; omega)]
      rfl
    obtain ⟨out1, cur1, imgs1, he, hinv, hle, hge, hge', hs1, hsub⟩ :=
      segImagesBefore_inv d r.bs imgs out cur h hs hib hic hr0 hfd
    have hbe : ∀ i ∈ imgs1, r.be ≤ i.off := by
      intro i hi
      have := hout i (hsub i hi) r (by simp)
      have := hge' i hi
      omega
    unfold segRuns
    rw [he]
    simp only [Option.bind_some]
    obtain ⟨out2, he2, hinv2⟩ := segEmitText_inv (fmt := d) hinv hle (hrb r (by simp)).1 hge'
      (fun x hx1 hx2 => hfd x (by omega) hx2)
    have hif : (if cur1 < r.bs then segEmitText plain out1 cur1 r.bs d else some out1) = some out2 := by
      split
      · exact he2
      · rw [← he2, segEmitText, if_pos (by omega)]
    rw [hif]
    simp only [Option.bind_some]
    obtain ⟨out3, he3, hinv3⟩ := segEmitText_inv (fmt := r.fmt) hinv2 (b := r.be)
      (Nat.le_of_lt ho.1) (hrb r (by simp)).2 hbe (fun x hx1 hx2 => hfr x hx1 hx2)
    rw [he3]
    simp only [Option.bind_some]
    refine ih imgs1 out3 r.be hinv3 ho.2.2 (fun r' hr' => hrb r' (by simp [hr'])) hs1
      (fun i hi => hib i (hsub i hi)) hbe ho.2.1
      (fun i hi r' hr' => hout i (hsub i hi) r' (by simp [hr'])) ?_
    intro x hx
    rw [hf x (by have := ho.1; omega), shownFmt, shownFmt, fmtAt_cons, if_neg (by omega)]

theorem segTailImages_inv {plain : List Char} {f : Nat → F} {imgs0 : List (Img F)} (d : F)
    (imgs : List (Img F)) (out : List (Segment F)) (cur : Nat)
    (h : SegInv plain f imgs0 out cur imgs)
    (hs : imgs.Pairwise (·.off ≤ ·.off)) (hib : ∀ i ∈ imgs, IsBoundary plain i.off)
    (hic : ∀ i ∈ imgs, cur ≤ i.off) (hf : ∀ x, cur ≤ x → f x = d) :
    ∃ out' cur', segTailImages plain d imgs out cur = some (out', cur') ∧
      SegInv plain f imgs0 out' cur' [] ∧ (∀ x, cur' ≤ x → f x = d) := by
  induction imgs generalizing out cur with
  | nil => exact ⟨out, cur, rfl, h, hf⟩
  | cons i is ih =>
    simp only [List.pairwise_cons] at hs
    have hi0 := hic i (by simp)
    unfold segTailImages
    obtain ⟨out1, he1, hinv1⟩ := segEmitText_inv (fmt := d) h hi0 (hib i (by simp))
      (by intro j hj; simp at hj; rcases hj with rfl | hj
          · omega
          · exact hs.1 j hj)
      (fun x hx1 _ => hf x hx1)
    have hnext := ih (out1 ++ [.image i]) i.off (segEmitImage_inv hinv1) hs.2
      (fun j hj => hib j (by simp [hj])) hs.1 (fun x hx => hf x (by omega))
    split
    · rw [he1]; exact hnext
    · have hc : cur = i.off := by omega
      rw [segEmitText, if_pos (by omega)] at he1
      simp at he1
      subst he1
      rw [hc]
      exact hnext

theorem inlineSegmentsView_spec (d : F) (plain : List Char) (runs : List (Run F))
    (imgs : List (Img F)) (ho : Ordered runs) (hs : imgs.Pairwise (·.off ≤ ·.off))
    (ha : Aligned plain runs imgs) (hout : ∀ i ∈ imgs, fmtAt runs i.off = none) :
    ∃ segs, inlineSegmentsView d plain runs imgs = some segs ∧
      segItems segs = reading (shownFmt d runs) 0 plain imgs := by
  have h0 : SegInv plain (shownFmt d runs) imgs [] 0 imgs :=
    ⟨⟨[], plain, by simp, by simp [segItems]⟩⟩
  have hout' : ∀ i ∈ imgs, ∀ r ∈ runs, ¬ (r.bs ≤ i.off ∧ i.off < r.be) := by
    intro i hi r hr hc
    have := hout i hi
    unfold fmtAt at this
    simp only [Option.map_eq_none_iff, List.find?_eq_none] at this
    exact absurd (this r hr) (by simp; omega)
  obtain ⟨out1, cur1, imgs1, he1, hinv1, hf1, hic1, hs1, hib1⟩ :=
    segRuns_inv d runs imgs [] 0 h0 ho ha.runs hs ha.imgs (by simp) (by simp) hout' (fun x _ => rfl)
  obtain ⟨out2, cur2, he2, hinv2, hf2⟩ := segTailImages_inv d imgs1 out1 cur1 hinv1 hs1 hib1 hic1 hf1
  have hle : cur2 ≤ utf8Len plain := by
    obtain ⟨pre, suf, h, _⟩ := hinv2.split
    exact splitAtByte_le h
  obtain ⟨out3, he3, hinv3⟩ := segEmitText_inv (fmt := d) hinv2 hle
    ⟨plain, [], by simp⟩ (by simp) (fun x hx _ => hf2 x hx)
  refine ⟨out3, ?_, ?_⟩
  · simp only [inlineSegmentsView, he1, he2, Option.bind_some]
    split
    · exact he3
    · rw [← he3, segEmitText, if_pos (by omega)]
  · obtain ⟨pre, suf, h, hr⟩ := hinv3.split
    rw [splitAtByte_len] at h
    simp at h
    rw [h.2] at hr
    simpa [reading] using hr

end Verif

namespace Verif
variable {F : Type}

theorem itemBytes_images (l : List (Img F)) : itemBytes (l.map Item.image) = 0 := by
  induction l with
  | nil => rfl
  | cons a l ih => simpa [itemBytes] using ih

theorem itemBytes_append (a b : List (Item F)) : itemBytes (a ++ b) = itemBytes a + itemBytes b := by
  simp [itemBytes]

theorem take_images_bytes (l : List (Img F)) (k : Nat) :
    itemBytes ((l.map Item.image).take k) = 0 := by
  rw [← List.map_take, itemBytes_images]

theorem logicalImages_spec (b target logical : Nat) (imgs : List (Img F)) (h : logical ≤ target) :
    let n := (imgs.takeWhile fun i => decide (i.off ≤ b)).length
    (target < logical + n ∧ logicalImages b target logical imgs = .inl ()) ∨
    (logical + n ≤ target ∧ logicalImages b target logical imgs =
      .inr (logical + n, imgs.dropWhile fun i => decide (i.off ≤ b))) := by
  induction imgs generalizing logical with
  | nil => right; simp [logicalImages, h]
  | cons i is ih =>
    unfold logicalImages
    by_cases hi : i.off ≤ b
    · by_cases ht : logical = target
      · left; simp [hi, ht]
      · simp only [hi, if_true, ht, if_false, List.takeWhile_cons, List.dropWhile_cons, decide_true,
          List.length_cons]
        have := ih (logical + 1) (by omega)
        simp only at this
        rcases this with ⟨h1, h2⟩ | ⟨h1, h2⟩
        · left; exact ⟨by omega, h2⟩
        · right; refine ⟨by omega, ?_⟩
          rw [h2]; congr 2; omega
    · right; simp [hi, h]

theorem logicalChars_spec (f : Nat → F) (target b logical : Nat) (cs : List Char)
    (imgs : List (Img F)) (h : logical ≤ target) :
    logicalChars target b logical cs imgs =
      b + itemBytes ((reading f b cs imgs).take (target - logical)) := by
  induction cs generalizing b logical imgs with
  | nil => simp [logicalChars, reading, take_images_bytes]
  | cons c cs ih =>
    unfold logicalChars
    have := logicalImages_spec b target logical imgs h
    simp only at this
    simp only [reading]
    rcases this with ⟨h1, h2⟩ | ⟨h1, h2⟩
    · rw [h2]
      simp only
      rw [List.take_append_of_le_length (by simp; omega), take_images_bytes]
      rfl
    · rw [h2]
      simp only
      rw [List.take_append, itemBytes_append, take_images_bytes, List.length_map]
      split
      · rename_i heq
        rw [heq.symm]
        simp [itemBytes]
      · have : target - logical - (imgs.takeWhile fun i => decide (i.off ≤ b)).length =
            (target - (logical + (imgs.takeWhile fun i => decide (i.off ≤ b)).length + 1)) + 1 := by
          omega
        rw [this, List.take_succ_cons, ih _ _ _ (by omega)]
        simp [itemBytes]
        omega

theorem itemBytes_take_mono (l : List (Item F)) {j k : Nat} (h : j ≤ k) :
    itemBytes (l.take j) ≤ itemBytes (l.take k) := by
  have : l.take j = (l.take k).take j := by rw [List.take_take]; congr 1; omega
  rw [this]
  have h2 := itemBytes_append ((l.take k).take j) ((l.take k).drop j)
  rw [List.take_append_drop] at h2
  omega

/-- The characters of a reading are the text. -/
theorem reading_take_boundary (f : Nat → F) (pos : Nat) (cs : List Char) (imgs : List (Img F))
    (k : Nat) : ∃ a b, cs = a ++ b ∧ utf8Len a = itemBytes ((reading f pos cs imgs).take k) := by
  induction cs generalizing pos imgs k with
  | nil => exact ⟨[], [], by simp, by simp [reading, take_images_bytes]⟩
  | cons c cs ih =>
    simp only [reading]
    rw [List.take_append, itemBytes_append, take_images_bytes]
    cases hk : k - ((imgs.takeWhile fun i => decide (i.off ≤ pos)).map Item.image).length with
    | zero => exact ⟨[], c :: cs, by simp, by simp [itemBytes]⟩
    | succ n =>
      obtain ⟨a, b, h1, h2⟩ := ih (pos + c.utf8Size) (imgs.dropWhile fun i => decide (i.off ≤ pos)) n
      refine ⟨c :: a, b, by simp [h1], ?_⟩
      rw [List.take_succ_cons, utf8Len_cons, h2]
      simp [itemBytes]

theorem reading_length (f : Nat → F) (pos : Nat) (cs : List Char) (imgs : List (Img F)) :
    (reading f pos cs imgs).length = cs.length + imgs.length := by
  induction cs generalizing pos imgs with
  | nil => simp [reading]
  | cons c cs ih =>
    have h := congrArg List.length (List.takeWhile_append_dropWhile (p := fun i : Img F => decide (i.off ≤ pos)) (l := imgs))
    rw [List.length_append] at h
    simp [reading, ih]; omega

theorem itemBytes_reading (f : Nat → F) (pos : Nat) (cs : List Char) (imgs : List (Img F)) :
    itemBytes (reading f pos cs imgs) = utf8Len cs := by
  induction cs generalizing pos imgs with
  | nil => simp [reading, itemBytes_images]
  | cons c cs ih =>
    simp only [reading]
    rw [itemBytes_append, itemBytes_images]
    have := ih (pos + c.utf8Size) (imgs.dropWhile fun i => decide (i.off ≤ pos))
    simp [itemBytes] at this ⊢
    omega

end Verif

namespace Verif
variable {F : Type}

theorem reading_chars (f : Nat → F) (pos : Nat) (cs : List Char) (imgs : List (Img F)) :
    (reading f pos cs imgs).flatMap (fun | .char c _ => [c] | .image _ => []) = cs := by
  induction cs generalizing pos imgs with
  | nil => simp [reading, List.flatMap_map]
  | cons c cs ih => simp [reading, List.flatMap_map, ih]

theorem reading_imgs (f : Nat → F) (pos : Nat) (cs : List Char) (imgs : List (Img F)) :
    (reading f pos cs imgs).filterMap (fun | .char _ _ => none | .image i => some i) = imgs := by
  induction cs generalizing pos imgs with
  | nil => simp [reading, List.filterMap_map, Function.comp_def]
  | cons c cs ih =>
    simp only [reading, List.filterMap_append, List.filterMap_map, Function.comp_def,
      List.filterMap_some, List.filterMap_cons, ih, List.takeWhile_append_dropWhile]

end Verif

namespace Verif
variable {F : Type}

theorem fragItems_text (cs : List Char) (fmt : F) (o n b : Nat) (l : List (Frag F)) :
    fragItems (.text cs fmt o n b :: l) = cs.map (.char · fmt) ++ fragItems l := rfl

theorem fragItems_image (i : Img F) (o : Nat) (l : List (Frag F)) :
    fragItems (.image i o :: l) = .image i :: fragItems l := rfl

theorem fragText_cons (a : Frag F) (l : List (Frag F)) :
    fragText (a :: l) = (match a with | .text cs _ _ _ _ => cs | .image _ _ => []) ++ fragText l := by
  cases a <;> rfl

theorem fragImgs_text (cs : List Char) (fmt : F) (o n b : Nat) (l : List (Frag F)) :
    fragImgs (.text cs fmt o n b :: l) = fragImgs l := rfl

theorem fragImgs_image (i : Img F) (o : Nat) (l : List (Frag F)) :
    fragImgs (.image i o :: l) = i :: fragImgs l := rfl

theorem fragItems_chars (frags : List (Frag F)) :
    fragText frags =
      (fragItems frags).flatMap (fun | .char c _ => [c] | .image _ => []) := by
  induction frags with
  | nil => rfl
  | cons a l ih =>
    cases a with
    | text cs fmt o n b =>
      rw [fragItems_text, List.flatMap_append, ← ih, List.flatMap_map, fragText_cons]
      simp
    | image i o =>
      simp only [fragItems_image, List.flatMap_cons, fragText_cons, ih]

theorem fragItems_imgs (frags : List (Frag F)) :
    fragImgs frags =
      (fragItems frags).filterMap (fun | .char _ _ => none | .image i => some i) := by
  induction frags with
  | nil => rfl
  | cons a l ih =>
    cases a with
    | text cs fmt o n b =>
      rw [fragItems_text, List.filterMap_append, ← ih, List.filterMap_map, fragImgs_text]
      simp [Function.comp_def]
    | image i o =>
      simp only [fragItems_image, List.filterMap_cons, fragImgs_image, ih]

end Verif

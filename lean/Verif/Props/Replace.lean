import Verif.Lemmas.ReplacePlaced
import Verif.Spec.Inspect
import Verif.Props.Search
import Verif.Props.PlainText
import Verif.Props.Inspect
import Verif.Props.Store
/-
C36: search and replace; with C20 for its undo and C47 for the counts after it.
-/
namespace Verif
variable {s : Store} {d : Document} {f : Nat} {ps : List SPara}
open Store

/-- Where the matches of every paragraph are, from `paraStart`. -/
theorem para_split {n : Nat} {p : SPara} (h : ps[n]? = some p) :
    ∃ L R, ps = L ++ p :: R ∧ L.length = n ∧ paraStart ps n = charsBefore (paras L) := by
  obtain ⟨hn, rfl⟩ := List.getElem?_eq_some_iff.mp h
  refine ⟨ps.take n, ps.drop (n + 1), ?_, by simp; omega, ?_⟩
  · simp
  · have := paraStart_at (ps.take n) (ps.drop n)
    rw [List.take_append_drop] at this
    simpa [Nat.min_eq_left (Nat.le_of_lt hn)] using this

theorem valid_block (h : Flat s d f ps) (ms : List (Nat × Nat)) :
    ∀ v ∈ ms.filterMap (placeMatch s (s.sortedBlocks d.id)), v.block < ps.length ∧
      v.pid (s.sortedBlocks d.id) ∈ ps.map SPara.id := by
  intro v hv
  have hl := h.listed
  obtain ⟨m', hm', hmv⟩ := List.mem_filterMap.mp hv
  obtain ⟨_, x, q, h2, h3, h4, _⟩ := (h.toShows.matchInBlock _ hl.entities.all m').choose_spec.2 v hmv
  constructor
  · have := (List.getElem?_eq_some_iff.mp h2).1
    have hlen := h.sortedBlocks_perm.length_eq
    rw [List.length_map] at hlen; omega
  · have : v.pid (s.sortedBlocks d.id) = q.id := by
      have : x.id = q.id := by rw [h4]
      simp [Store.ValidMatch.pid, h2, this]
    rw [this]; exact List.mem_map_of_mem h3

theorem count_mine (blocks : List Block) (vs : List ValidMatch) (hnd : (ps.map SPara.id).Nodup)
    (hvs : ∀ v ∈ vs, v.pid blocks ∈ ps.map SPara.id) :
    (ps.map fun p => (minePairs blocks vs p.id).length).sum = vs.length := by
  induction vs with
  | nil =>
    simp only [minePairs, List.filter_nil, List.map_nil, List.length_nil]
    clear hnd hvs
    induction ps with
    | nil => rfl
    | cons q qs ih => simpa using ih
  | cons v vs ih =>
    have hi := ih fun x hx => hvs x (by simp [hx])
    obtain ⟨q, hq, hqv⟩ := List.mem_map.mp (hvs v (by simp))
    have : ∀ qs : List SPara, (qs.map SPara.id).Nodup →
        (qs.map fun q => (minePairs blocks (v :: vs) q.id).length).sum =
        (if q.id ∈ qs.map SPara.id then 1 else 0) + (qs.map fun q => (minePairs blocks vs q.id).length).sum := by
      intro qs
      induction qs with
      | nil => intro _; simp
      | cons x qs ih =>
        intro hnd
        rw [List.map_cons, List.nodup_cons] at hnd
        simp only [List.map_cons, List.sum_cons]
        rw [ih hnd.2]
        by_cases e : q.id = x.id
        · have h1 : q.id ∉ qs.map SPara.id := by rw [e]; exact hnd.1
          have h2 : minePairs blocks (v :: vs) x.id = (v.off, v.len) :: minePairs blocks vs x.id := by
            unfold minePairs
            rw [List.filter_cons, if_pos (by simp [← hqv, e])]; rfl
          rw [if_neg h1, h2, if_pos (by simp [e])]
          simp only [List.length_cons]; omega
        · have h2 : minePairs blocks (v :: vs) x.id = minePairs blocks vs x.id := by
            unfold minePairs
            rw [List.filter_cons, if_neg (by simp [← hqv, e])]
          rw [h2]
          have : (q.id ∈ x.id :: List.map SPara.id qs) ↔ q.id ∈ qs.map SPara.id := by simp [e]
          simp only [this]; omega
    rw [this ps hnd, if_pos (List.mem_map_of_mem hq), hi, List.length_cons]; omega

/-- `replace_text` with `replace_all`, the searched matches being `ms`. -/
theorem replace_all_with (h : Flat s d f ps) (env : SearchEnv) (dto : ReplaceDto) {ms : List (Nat × Nat)}
    (hm : findAllMatches env (docText ps) dto.query dto.caseSensitive dto.wholeWord dto.useRegex = some ms)
    {vs : List ValidMatch}
    (hvs : vs = if dto.replaceAll then ms.filterMap (placeMatch s (s.sortedBlocks d.id))
      else (ms.filterMap (placeMatch s (s.sortedBlocks d.id))).take 1) :
    ∃ s' sk, s.replaceText env dto = some (s', ⟨vs.length, sk⟩, s.snapshot) ∧
      (ms.filterMap (placeMatch s (s.sortedBlocks d.id))).length + sk = ms.length ∧
      Flat s' { d with characterCount := d.characterCount + (vs.map fun v => (dto.replacement.length : Int) - (v.len : Int)).sum }
        f (rewriteMatches dto.replacement (s.sortedBlocks d.id) vs ps) ∧
      (∀ i, s'.blocks i = (s.updateBlocks (shiftedBlocks dto.replacement.length vs (s.sortedBlocks d.id) 0
        (s.sortedBlocks d.id))).blocks i) := by
  obtain ⟨s', sk, h1, h2, h3, _, _, h4⟩ := h.replaceMatches dto.replacement dto.replaceAll ms hvs
  refine ⟨s', sk, ?_, h2, h3, h4⟩
  unfold Store.replaceText
  rw [h.docId, Option.bind_some]
  dsimp only
  rw [h.searchText, Option.bind_some, hm, Option.bind_some, h1, Option.map_some]

/-- **C36 (any search options).** Replacing all matches in a document whose stored paragraph positions
are right, when no two matches in the same paragraph overlap: every match that lies in one paragraph is
replaced, those across a paragraph end are left alone, nothing else changes; the reported numbers are
those of the replaced and of the skipped matches, the character count follows the text, and the stored
positions are right again. -/
theorem C36_replace_matches_partial (h : Flat s d f ps) (hp : Placed s ps) (env : SearchEnv) (dto : ReplaceDto)
    {ms : List (Nat × Nat)} (hall : dto.replaceAll = true)
    (hm : findAllMatches env (docText ps) dto.query dto.caseSensitive dto.wholeWord dto.useRegex = some ms)
    (hpos : ∀ m ∈ ms, 0 < m.2)
    (hap : ∀ n p, ps[n]? = some p → Apart (within (paraStart ps n) p.chars.length ms)) :
    ∃ s' r, s.replaceText env dto = some (s', r, s.snapshot) ∧
      Flat s' { d with characterCount := d.characterCount +
          ((charTotal (rewriteDoc dto.replacement ms 0 ps) : Int) - charTotal ps) }
        f (rewriteDoc dto.replacement ms 0 ps) ∧
      Placed s' (rewriteDoc dto.replacement ms 0 ps) ∧
      r.replaced = ((List.range ps.length).map fun n =>
        (within (paraStart ps n) ((ps[n]?.map fun p => p.chars.length).getD 0) ms).length).sum ∧
      r.replaced + r.skipped = ms.length := by
  generalize hvs : ms.filterMap (placeMatch s (s.sortedBlocks d.id)) = vs
  obtain ⟨s', sk, h1, h2, h3, h4⟩ := replace_all_with h env dto hm (vs := vs) (by rw [if_pos hall, hvs])
  rw [hvs] at h2
  have hmine : ∀ L p R, ps = L ++ p :: R → minePairs (s.sortedBlocks d.id) vs p.id =
      within (charsBefore (paras L)) p.chars.length ms := by
    intro L p R e; subst e; rw [← hvs]; exact h.mine_placed hp ms hpos
  have hok : ∀ p ∈ ps, Apart (minePairs (s.sortedBlocks d.id) vs p.id) ∧
      ∀ m ∈ minePairs (s.sortedBlocks d.id) vs p.id, m.1 + m.2 ≤ p.chars.length := by
    intro p hpm
    obtain ⟨n, hn⟩ := List.mem_iff_getElem?.mp hpm
    obtain ⟨L, R, e, hL, hst⟩ := para_split hn
    rw [hmine L p R e, ← hst]
    refine ⟨hap n p hn, ?_⟩
    intro m hmm
    unfold within at hmm
    obtain ⟨m0, h5, rfl⟩ := List.mem_map.mp hmm
    simp only [List.mem_filter, decide_eq_true_eq] at h5
    simp only; omega
  have hrw := h.rewrite_placed hp dto.replacement ms hpos
  rw [hvs] at hrw
  have hct := charTotal_rewrite (ms := ms) h.listed dto.replacement h.toShows (vs := vs) (by rw [hvs]; exact .refl _) hok
  have hpl := h.placed_after hp dto.replacement vs (fun v hv => (valid_block h ms v (by rw [hvs]; exact hv)).1) hok h4
  rw [hrw] at h3 hct hpl
  have hcc : (vs.map fun v => (dto.replacement.length : Int) - (v.len : Int)).sum =
    (charTotal (rewriteDoc dto.replacement ms 0 ps) : Int) - charTotal ps := by omega
  rw [hcc] at h3
  refine ⟨s', _, h1, h3, hpl, ?_, h2⟩
  show vs.length = _
  rw [← count_mine (s.sortedBlocks d.id) vs h.ids_nodup
    (fun v hv => (valid_block h ms v (by rw [hvs]; exact hv)).2)]
  congr 1
  apply List.ext_getElem
  · simp
  · intro n h5 h6
    simp only [List.length_map] at h5
    obtain ⟨L, R, e, hL, hst⟩ := para_split (List.getElem?_eq_getElem h5)
    simp only [List.getElem_map, List.getElem_range, List.getElem?_eq_getElem h5, Option.map_some, Option.getD_some]
    rw [hmine L _ R e, hst]

theorem literal_occurrences (t q : List Char) (hq : q ≠ []) :
    literalMatches t q none = (occurrences q t).map fun o => (o, q.length) := by
  have : (literalMatches t q none).map Prod.fst = occurrences q t := by
    apply eq_of_increasing _ (occurrences_sorted q t)
    · intro i
      rw [mem_occurrences hq, List.mem_map]
      constructor
      · rintro ⟨m, hm, rfl⟩; exact ((literal_mem hq).mp hm).2.1
      · intro hi; exact ⟨(i, q.length), (literal_mem hq).mpr ⟨rfl, hi, rfl⟩, rfl⟩
    · rw [List.pairwise_map]; exact literal_sorted t q none
  rw [← this, List.map_map]
  conv => lhs; rw [← List.map_id (literalMatches t q none)]
  apply List.map_congr_left
  intro m hm
  have := ((literal_mem hq).mp hm).1
  simp only [id, Function.comp_apply, ← this]

theorem within_para {L R : List SPara} {p : SPara} (q : List Char) (hq : q ≠ []) :
    within (charsBefore (paras L)) p.chars.length ((occurrences q (docText (L ++ p :: R))).map fun o => (o, q.length)) =
      (occurrences q p.text).map fun o => (o, q.length) := by
  have e : docText (L ++ p :: R) = (headChars L).map Prod.fst ++ p.text ++ (tailChars R).map Prod.fst := by
    rw [docText_chars, docChars_mid]; simp [SPara.text]
  have := within_occurrences q hq ((headChars L).map Prod.fst) p.text ((tailChars R).map Prod.fst)
  rw [← e, List.length_map, headChars_length] at this
  simpa [SPara.text] using this

/-- **C36 (literal search).** Replacing all occurrences of `q`, upper and lower case told apart, in a
document whose stored paragraph positions are right and in which no two occurrences in the same
paragraph overlap: reading every paragraph from left to right, each occurrence of `q` becomes the
replacement and every other character stays, with its format; the reported number is that of the
occurrences in paragraphs, the skipped ones are the others in the text, and the character count
follows the text. -/
theorem C36_replace_all_partial (h : Flat s d f ps) (hp : Placed s ps) (env : SearchEnv) (q rep : List Char)
    (hq : q ≠ []) (hap : ∀ p ∈ ps, ∀ i j, OccursAt q i p.text → OccursAt q j p.text → i < j → i + q.length ≤ j) :
    ∃ s' r, s.replaceText env ⟨q, rep, true, true, false, false⟩ = some (s', r, s.snapshot) ∧
      Flat s' { d with characterCount := d.characterCount +
          ((charTotal (ps.map (replacePara q rep)) : Int) - charTotal ps) } f (ps.map (replacePara q rep)) ∧
      Placed s' (ps.map (replacePara q rep)) ∧
      r.replaced = (ps.map fun p => (occurrences q p.text).length).sum ∧
      r.replaced + r.skipped = (occurrences q (docText ps)).length := by
  have hm : findAllMatches env (docText ps) q true false false =
      some ((occurrences q (docText ps)).map fun o => (o, q.length)) := by
    rw [← literal_occurrences _ _ hq]; simp [findAllMatches, hq]
  have happ : ∀ p ∈ ps, (occurrences q p.text).Pairwise fun i j => i + q.length ≤ j := by
    intro p hp
    refine List.Pairwise.imp_of_mem ?_ (occurrences_sorted q p.text)
    intro i j hi hj hij
    exact hap p hp i j ((mem_occurrences hq).mp hi) ((mem_occurrences hq).mp hj) hij
  obtain ⟨s', r, h1, h2, h3, h4, h5⟩ := C36_replace_matches_partial h hp env ⟨q, rep, true, true, false, false⟩ rfl hm
    (by
      intro m hm'
      obtain ⟨o, _, rfl⟩ := List.mem_map.mp hm'
      exact List.length_pos_iff.mpr hq)
    (by
      intro n p hn
      obtain ⟨L, R, e, hL, hst⟩ := para_split hn
      rw [hst, e, within_para q hq, Apart, List.pairwise_map]
      exact happ p (List.mem_of_getElem? hn))
  have hdoc : rewriteDoc rep ((occurrences q (docText ps)).map fun o => (o, q.length)) 0 ps =
      ps.map (replacePara q rep) := by
    rw [← rewriteDoc_eq rep _ (fun p => (occurrences q p.text).map fun o => (o, q.length)) 0 ps]
    · apply List.map_congr_left
      intro p hp
      rw [replacePara, ← rewriteAllF_none]
      have := replaceScan_eq q rep hq p.chars none 0 (happ p hp) (by simp)
      rw [← this]; rfl
    · intro L p R e
      rw [Nat.zero_add, e, within_para q hq]
  rw [hdoc] at h2 h3
  refine ⟨s', r, h1, h2, h3, ?_, by simpa using h5⟩
  rw [h4]
  congr 1
  apply List.ext_getElem
  · simp
  · intro n h6 h7
    simp only [List.length_map, List.length_range] at h6
    obtain ⟨L, R, e, hL, hst⟩ := para_split (List.getElem?_eq_getElem h6)
    simp only [List.getElem_map, List.getElem_range, List.getElem?_eq_getElem h6, Option.map_some, Option.getD_some]
    rw [hst]
    conv => lhs; rw [show docText ps = docText (L ++ ps[n] :: R) by rw [← e]]
    rw [within_para q hq, List.length_map]

/-- **C36 (one replacement).** Replacing one occurrence, in a document whose stored paragraph positions
are right: the first occurrence of `q` that lies in a paragraph, and only it, becomes the replacement;
when there is none, nothing changes. -/
theorem C36_replace_one_partial (h : Flat s d f ps) (hp : Placed s ps) (env : SearchEnv) (q rep : List Char)
    (hq : q ≠ []) :
    ∃ s' r, s.replaceText env ⟨q, rep, false, true, false, false⟩ = some (s', r, s.snapshot) ∧
      ((∀ p ∈ ps, occurrences q p.text = []) → Flat s' d f ps ∧ Placed s' ps ∧ r.replaced = 0) ∧
      (∀ L p R o os, ps = L ++ p :: R → (∀ x ∈ L, occurrences q x.text = []) → occurrences q p.text = o :: os →
        Flat s' { d with characterCount := d.characterCount + ((rep.length : Int) - q.length) } f
            (L ++ { p with chars := rewriteAt rep o q.length p.chars } :: R) ∧
          Placed s' (L ++ { p with chars := rewriteAt rep o q.length p.chars } :: R) ∧ r.replaced = 1) := by
  have hm : findAllMatches env (docText ps) q true false false =
      some ((occurrences q (docText ps)).map fun o => (o, q.length)) := by
    rw [← literal_occurrences _ _ hq]; simp [findAllMatches, hq]
  generalize hms : ((occurrences q (docText ps)).map fun o => (o, q.length)) = ms at hm
  have hpos : ∀ m ∈ ms, 0 < m.2 := by
    rw [← hms]
    intro m hm'
    obtain ⟨o, _, rfl⟩ := List.mem_map.mp hm'
    exact List.length_pos_iff.mpr hq
  have hsorted : ms.Pairwise fun a b => a.1 < b.1 := by
    rw [← hms, List.pairwise_map]; exact occurrences_sorted q _
  obtain ⟨s', sk, h1, h2, h3, h4⟩ := replace_all_with h env ⟨q, rep, false, true, false, false⟩ hm rfl
  simp only [Bool.false_eq_true, if_false] at h1 h3 h4
  have hval := valid_block h ms
  generalize hvs : ms.filterMap (placeMatch s (s.sortedBlocks d.id)) = vs at h1 h2 h3 h4 hval
  have hmine : ∀ L p R, ps = L ++ p :: R → minePairs (s.sortedBlocks d.id) vs p.id =
      (occurrences q p.text).map fun o => (o, q.length) := by
    intro L p R e; subst e
    rw [← hvs, h.mine_placed hp ms hpos, ← hms, within_para q hq]
  refine ⟨s', _, h1, ?_, ?_⟩
  · intro hnone
    have hv0 : vs = [] := by
      rw [← List.length_eq_zero_iff, ← count_mine (s.sortedBlocks d.id) vs h.ids_nodup fun v hv => (hval v hv).2]
      have : ∀ p ∈ ps, (minePairs (s.sortedBlocks d.id) vs p.id).length = 0 := by
        intro p hpm
        obtain ⟨L, R, e⟩ := List.append_of_mem hpm
        rw [hmine L p R e, hnone p hpm]; rfl
      have hz : ∀ l : List SPara, (l.map fun _ => 0).sum = 0 := by
        intro l
        induction l with
        | nil => rfl
        | cons _ _ ih => simpa using ih
      rw [List.map_congr_left (g := fun _ => 0) this, hz]
    subst hv0
    simp only [List.take_nil, List.map_nil, List.sum_nil, Int.add_zero] at h3 h4
    refine ⟨h3, ?_, rfl⟩
    have := h.placed_after hp rep [] (by simp) (by intro p _; exact ⟨.nil, by simp [minePairs]⟩) h4
    exact this
  · intro L p R o os e hL ho
    have hpm : minePairs (s.sortedBlocks d.id) vs p.id = (o, q.length) :: (os.map fun o => (o, q.length)) := by
      rw [hmine L p R e, ho]; rfl
    cases hv : vs with
    | nil => rw [hv] at hpm; simp [minePairs] at hpm
    | cons v vs' =>
      rw [hv] at h1 h3 h4 hpm hval hmine
      have hvid : v.pid (s.sortedBlocks d.id) = p.id := by
        obtain ⟨x, hx, hxv⟩ := List.mem_map.mp (hval v (by simp)).2
        obtain ⟨A, B, eA⟩ := List.append_of_mem hx
        have hne : minePairs (s.sortedBlocks d.id) (v :: vs') x.id ≠ [] := by
          unfold minePairs; rw [List.filter_cons, if_pos (by simp [hxv])]; simp
        -- the paragraph of the first match is not before `p`
        have hxL : x ∉ L := fun hxl => hne (by rw [hmine A x B eA, hL x hxl]; rfl)
        rw [e] at hx
        rcases List.mem_append.mp hx with hx' | hx'
        · exact absurd hx' hxL
        rcases List.mem_cons.mp hx' with rfl | hxR
        · exact hxv.symm
        exfalso
        -- the match in `p` comes first
        obtain ⟨R1, R2, eR⟩ := List.append_of_mem hxR
        have hsplit : ps = (L ++ p :: R1) ++ x :: R2 := by rw [e, eR]; simp
        have hmem : (charsBefore (paras L) + o, q.length) ∈ ms := by
          have hw := within_para (L := L) (p := p) (R := R) q hq
          rw [← e, hms, ho] at hw
          have : (o, q.length) ∈ within (charsBefore (paras L)) p.chars.length ms := by rw [hw]; simp
          unfold within at this
          obtain ⟨m0, h5, h6⟩ := List.mem_map.mp this
          simp only [List.mem_filter, decide_eq_true_eq] at h5
          simp only [Prod.mk.injEq] at h6
          have : m0 = (charsBefore (paras L) + o, q.length) := by
            apply Prod.ext
            · simp only; omega
            · exact h6.2
          rw [← this]; exact h5.1
        have hol : o < p.chars.length := by
          have : OccursAt q o p.text := (mem_occurrences hq).mp (by rw [ho]; simp)
          have := (occursAt_iff.mp this).1
          have h0 := List.length_pos_iff.mpr hq
          simp [SPara.text] at this; omega
        -- the first element of `vs` comes from a match not after any placed one
        have hfirst : ∀ (ms : List (Nat × Nat)), ms.Pairwise (fun a b => a.1 < b.1) → ∀ v vs',
            ms.filterMap (placeMatch s (s.sortedBlocks d.id)) = v :: vs' →
            ∃ m0 ∈ ms, placeMatch s (s.sortedBlocks d.id) m0 = some v ∧
              ∀ m ∈ ms, (placeMatch s (s.sortedBlocks d.id) m).isSome → m0.1 ≤ m.1 := by
          intro ms
          induction ms with
          | nil => intro _ v vs' hh; simp at hh
          | cons m ms ih =>
            intro hpw v vs' hh
            rw [List.pairwise_cons] at hpw
            cases hpm : placeMatch s (s.sortedBlocks d.id) m with
            | none =>
              rw [List.filterMap_cons_none hpm] at hh
              obtain ⟨m0, h5, h6, h7⟩ := ih hpw.2 v vs' hh
              refine ⟨m0, by simp [h5], h6, ?_⟩
              intro m1 hm1 hs1
              rcases List.mem_cons.mp hm1 with rfl | hm1
              · rw [hpm] at hs1; simp at hs1
              · exact h7 m1 hm1 hs1
            | some w =>
              rw [List.filterMap_cons_some hpm] at hh
              cases hh
              refine ⟨m, by simp, hpm, ?_⟩
              intro m1 hm1 _
              rcases List.mem_cons.mp hm1 with rfl | hm1
              · exact Nat.le_refl _
              · exact Nat.le_of_lt (hpw.1 m1 hm1)
        obtain ⟨m0, h5, h6, h7⟩ := hfirst ms hsorted v vs' (by rw [hvs, hv])
        have hl := h.listed
        obtain ⟨g1, y, z, g2, g3, g4, g5, g6⟩ := (h.toShows.matchInBlock _ hl.entities.all m0).choose_spec.2 v h6
        have hyx : y.id = x.id := by rw [hxv]; simp [Store.ValidMatch.pid, g2]
        have hst := hl.stored y (List.mem_of_getElem? g2)
        obtain ⟨b, hb1, hb2⟩ := hp _ _ _ hsplit
        rw [hyx, hb1] at hst
        cases hst
        have hsome : (placeMatch s (s.sortedBlocks d.id) (charsBefore (paras L) + o, q.length)).isSome := by
          have hb := h.toShows.blockFor_placed (p := p) L R 0 0 o (fun y hy => by rw [e]; exact hy) hol
          rw [Nat.zero_add] at hb
          unfold placeMatch Store.matchInBlock
          rw [h.sortedBlocks_placed hp, e, show (0 : Int) = ((0 : Nat) : Int) from rfl]
          dsimp only
          rw [hb]
          have : OccursAt q o p.text := (mem_occurrences hq).mp (by rw [ho]; simp)
          have := (occursAt_iff.mp this).1
          simp only [Option.map_some, Option.join_some]
          rw [if_pos (by simpa [SPara.text] using this)]; rfl
        have := h7 _ hmem hsome
        simp only at this
        rw [hb2] at g6
        have e3 : charsBefore (paras (L ++ p :: R1)) = charsBefore (paras L) + (p.chars.length + 1 + charsBefore (paras R1)) := by
          rw [paras_append, charsBefore_append, charsBefore_paras_cons]
        rw [e3] at g6
        push_cast at g6
        omega
      have hvo : v.off = o ∧ v.len = q.length := by
        unfold minePairs at hpm
        rw [List.filter_cons, if_pos (by simp [hvid]), List.map_cons] at hpm
        have := (List.cons.inj hpm).1
        exact ⟨(Prod.mk.inj this).1, (Prod.mk.inj this).2⟩
      have hrw : rewriteMatches rep (s.sortedBlocks d.id) [v] ps =
          L ++ { p with chars := rewriteAt rep o q.length p.chars } :: R := by
        rw [rewriteMatches_eq, e, List.map_append, List.map_cons]
        have hnd := h.ids_nodup
        rw [e, List.map_append, List.map_cons, List.nodup_append, List.nodup_cons] at hnd
        have hoth : ∀ x : SPara, x.id ≠ p.id →
            ({ x with chars := rewriteAll rep (minePairs (s.sortedBlocks d.id) [v] x.id) x.chars } : SPara) = x := by
          intro x hx
          have : minePairs (s.sortedBlocks d.id) [v] x.id = [] := by
            unfold minePairs
            rw [List.filter_cons, if_neg (by simpa [hvid] using fun e => hx e.symm)]; rfl
          rw [this]; rfl
        have hself : minePairs (s.sortedBlocks d.id) [v] p.id = [(o, q.length)] := by
          unfold minePairs
          rw [List.filter_cons, if_pos (by simp [hvid])]
          simp [hvo.1, hvo.2]
        congr 1
        · conv => rhs; rw [← List.map_id L]
          apply List.map_congr_left
          intro x hx
          exact hoth x fun e => hnd.2.2 x.id (List.mem_map_of_mem hx) p.id (by simp) e
        · congr 1
          · rw [hself]; rfl
          · conv => rhs; rw [← List.map_id R]
            apply List.map_congr_left
            intro x hx
            exact hoth x fun e => hnd.2.1.1 (e ▸ List.mem_map_of_mem hx)
      have hok : ∀ x ∈ ps, Apart (minePairs (s.sortedBlocks d.id) [v] x.id) ∧
          ∀ m ∈ minePairs (s.sortedBlocks d.id) [v] x.id, m.1 + m.2 ≤ x.chars.length := by
        intro x hx
        obtain ⟨A, B, eA⟩ := List.append_of_mem hx
        have hsub : (minePairs (s.sortedBlocks d.id) [v] x.id).Sublist (minePairs (s.sortedBlocks d.id) (v :: vs') x.id) := by
          unfold minePairs
          exact ((List.Sublist.cons₂ v (List.nil_sublist vs')).filter _).map _
        constructor
        · unfold minePairs Apart
          rw [List.filter_cons]
          split <;> simp
        · intro m hmm
          have := hsub.subset hmm
          rw [hmine A x B eA] at this
          obtain ⟨o', ho', rfl⟩ := List.mem_map.mp this
          have := (occursAt_iff.mp ((mem_occurrences hq).mp ho')).1
          simpa [SPara.text] using this
      have hpl := h.placed_after hp rep [v] (fun w hw => by
        simp only [List.mem_singleton] at hw
        subst hw
        exact (hval w (by simp)).1) hok h4
      simp only [List.take_succ_cons, List.take_zero] at h3
      rw [hrw] at h3 hpl
      simp only [List.map_cons, List.map_nil, List.sum_cons, List.sum_nil, Int.add_zero, hvo.2] at h3
      exact ⟨h3, hpl, rfl⟩

/-! ## C20, C47 -/

/-- **C47 (replacing).** On every document of one frame, whether the stored positions are right or not
and whatever the options: replacing matches that do not overlap keeps the number of paragraphs, and the
character count moves exactly as the text does. -/
theorem C47_replace_partial (h : Flat s (countsOf d ps) f ps) (env : SearchEnv) (dto : ReplaceDto)
    {ms : List (Nat × Nat)}
    (hm : findAllMatches env (docText ps) dto.query dto.caseSensitive dto.wholeWord dto.useRegex = some ms)
    (hap : Apart ms) :
    ∃ s' r ps', s.replaceText env dto = some (s', r, s.snapshot) ∧ Flat s' (countsOf d ps') f ps' ∧
      ps'.map SPara.id = ps.map SPara.id ∧ ps'.map SPara.shape = ps.map SPara.shape ∧
      r.replaced ≤ ms.length := by
  obtain ⟨s', sk, h1, h2, h3, h4⟩ := replace_all_with h env dto hm rfl
  have hid : (countsOf d ps).id = d.id := rfl
  generalize hvs : (if dto.replaceAll then ms.filterMap (placeMatch s (s.sortedBlocks (countsOf d ps).id))
      else (ms.filterMap (placeMatch s (s.sortedBlocks (countsOf d ps).id))).take 1) = vs at h1 h3
  have hsub : vs.Sublist (ms.filterMap (placeMatch s (s.sortedBlocks (countsOf d ps).id))) := by
    rw [← hvs]; split
    · exact .refl _
    · exact List.take_sublist _ _
  have hct := charTotal_rewrite h.listed dto.replacement h.toShows hsub
    fun p hp => mine_apart h.listed h.toShows hsub hap hp
  refine ⟨s', _, rewriteMatches dto.replacement (s.sortedBlocks (countsOf d ps).id) vs ps, h1, ?_,
    rewriteMatches_ids _ _ _ _, ?_, ?_⟩
  · have hlen : (rewriteMatches dto.replacement (s.sortedBlocks (countsOf d ps).id) vs ps).length = ps.length := by
      have := congrArg List.length (rewriteMatches_ids dto.replacement (s.sortedBlocks (countsOf d ps).id) vs ps)
      simpa using this
    have : countsOf d (rewriteMatches dto.replacement (s.sortedBlocks (countsOf d ps).id) vs ps) =
        { countsOf d ps with characterCount := (countsOf d ps).characterCount +
          (vs.map fun v => (dto.replacement.length : Int) - (v.len : Int)).sum } := by
      have hid' : s.sortedBlocks (countsOf d ps).id = s.sortedBlocks d.id := rfl
      rw [hid'] at hct hlen ⊢
      simp only [countsOf, hlen]
      congr 1; omega
    rw [this]; exact h3
  · rw [rewriteMatches_eq, List.map_map]; rfl
  · have := hsub.length_le
    show vs.length ≤ ms.length
    omega

/-- Replacing depends only on the document, not on the id counters. -/
theorem replaceText_same {s1 : Store} (h : Flat s d f ps) (hs : SameContent s1 s) (h1 : Flat s1 d f ps)
    (env : SearchEnv) (dto : ReplaceDto) {s' : Store} {r : ReplaceResult}
    (e : s.replaceText env dto = some (s', r, s.snapshot)) :
    ∃ s1' d' ps', s1.replaceText env dto = some (s1', r, s1.snapshot) ∧ Flat s' d' f ps' ∧ Flat s1' d' f ps' := by
  have hm : ∃ ms, findAllMatches env (docText ps) dto.query dto.caseSensitive dto.wholeWord dto.useRegex = some ms := by
    unfold Store.replaceText at e
    rw [h.docId, Option.bind_some] at e
    dsimp only at e
    rw [h.searchText, Option.bind_some] at e
    cases hh : findAllMatches env (docText ps) dto.query dto.caseSensitive dto.wholeWord dto.useRegex with
    | none => rw [hh] at e; cases e
    | some ms => exact ⟨ms, rfl⟩
  obtain ⟨ms, hm⟩ := hm
  obtain ⟨t, sk, g1, g2, g3, g4⟩ := replace_all_with h env dto hm rfl
  obtain ⟨t1, sk1, k1, k2, k3, k4⟩ := replace_all_with h1 env dto hm rfl
  have hsb : s1.sortedBlocks d.id = s.sortedBlocks d.id := by
    unfold Store.sortedBlocks Store.getBlocks Store.docFrames Store.frameBlocks
    rw [hs.documents, hs.frames, hs.blocks]
  have htx : s1.text = s.text := by
    unfold Store.text; rw [hs.rope, hs.blockOffsets]
  have hpm : placeMatch s1 (s.sortedBlocks d.id) = placeMatch s (s.sortedBlocks d.id) := by
    funext m; unfold placeMatch; rw [htx]
  rw [hsb, hpm] at k1 k2 k3
  rw [e] at g1
  cases g1
  have : sk1 = sk := by omega
  subst this
  exact ⟨t1, _, _, k1, g3, k3⟩

/-- **C20 (replacing).** Undoing a replacement gives back exactly the document of before; redoing it then gives
the same document as the first time, and it can be undone again. -/
theorem C20_replace_partial (h : Flat s (countsOf d ps) f ps) (hs : Sole d.id f s) (env : SearchEnv) (dto : ReplaceDto)
    {s' : Store} {r : ReplaceResult} {snap : Snapshot} (e : s.replaceText env dto = some (s', r, snap)) :
    Sees d f (s'.undoReplace snap) (ps, s.next "block") ∧ SameContent (s'.undoReplace snap) s ∧
    ∃ s'' d' ps' snap', (s'.undoReplace snap).replaceText env dto = some (s'', r, snap') ∧
      Flat s' d' f ps' ∧ Flat s'' d' f ps' ∧ SameContent (s''.undoReplace snap') s := by
  have hm : ∃ ms, findAllMatches env (docText ps) dto.query dto.caseSensitive dto.wholeWord dto.useRegex = some ms := by
    have e0 := e
    unfold Store.replaceText at e0
    rw [h.docId, Option.bind_some] at e0
    dsimp only at e0
    rw [h.searchText, Option.bind_some] at e0
    cases hh : findAllMatches env (docText ps) dto.query dto.caseSensitive dto.wholeWord dto.useRegex with
    | none => rw [hh] at e0; cases e0
    | some ms => exact ⟨ms, rfl⟩
  obtain ⟨ms, hm⟩ := hm
  have hrm := h.replaceMatches dto.replacement dto.replaceAll ms rfl
  obtain ⟨t, sk, g1, g2, g3, g5, g6, g4⟩ := hrm
  have ht : ∃ r0, s.replaceText env dto = some (t, r0, s.snapshot) := by
    unfold Store.replaceText
    rw [h.docId, Option.bind_some]
    dsimp only
    rw [h.searchText, Option.bind_some, hm, Option.bind_some, g1, Option.map_some]
    exact ⟨_, rfl⟩
  obtain ⟨r0, ht⟩ := ht
  rw [e] at ht
  have e1 : s' = t ∧ snap = s.snapshot := by cases ht; exact ⟨rfl, rfl⟩
  obtain ⟨rfl, rfl⟩ := e1
  have hn : s'.next "block" = s.next "block" := by simp [Store.next, g6]
  have hsees := (Flat.sees h hs).restores s' (by show s.next "block" ≤ _; omega)
  have hsame : SameContent (s'.undoReplace s.snapshot) s := (C27_undo_snapshot s s').1
  refine ⟨hsees, hsame, ?_⟩
  obtain ⟨s'', d', ps', k1, k2, k3⟩ := replaceText_same h hsame hsees.flat env dto e
  refine ⟨s'', d', ps', _, k1, k2, k3, ?_⟩
  have := (C27_undo_snapshot (s'.undoReplace s.snapshot) s'').1
  exact ⟨this.rope, this.roots, this.documents, this.frames, this.blocks, this.lists, this.resources, this.tables,
    this.tableCells, this.formatRuns, this.blockImages, this.blockOffsets⟩

/-! ## Cases and counterexamples -/

/-- Search as in the theorems: the engines are not used. -/
def plainSearch : SearchEnv := ⟨id, fun _ => [], fun _ _ => none⟩

/-- The hypotheses are met by every freshly loaded text: "a cat, a hat" in two lines. -/
example : ∃ (s s' : Store) (r : ReplaceResult) (snap : Snapshot),
    (Store.newStore.bind fun s => s.importPlainText "a cat\na hat".toList) = some s ∧
    s.replaceText plainSearch ⟨['a', ' '], ['t', 'h', 'e', ' '], true, true, false, false⟩ = some (s', r, snap) ∧
    s'.exportPlainText = some "the cat\nthe hat".toList ∧ r = ⟨2, 0⟩ := by
  obtain ⟨s, e1, e2, e3, _⟩ := newStore_flat
  obtain ⟨s1, e4, e5, _, e6⟩ := e2.import e3 "a cat\na hat".toList
  obtain ⟨s', r, h1, h2, _, h3, h4⟩ := C36_replace_all_partial e5 e6 plainSearch ['a', ' '] ['t', 'h', 'e', ' ']
    (by simp) (by
      intro p hp i j hi hj hij
      have ho : ∀ k, OccursAt ['a', ' '] k p.text → k = 0 := by
        intro k hk
        have := (mem_occurrences (by simp)).mpr hk
        have hps : p.text ∈ ["a cat".toList, "a hat".toList] := by
          have h1 : p.text ∈ (linesFrom (s.next "block") (Store.splitLines (unixText "a cat\na hat".toList))).map SPara.text :=
            List.mem_map_of_mem hp
          rw [linesFrom_text] at h1
          exact h1
        rcases List.mem_cons.mp hps with h | h
        · rw [h, show occurrences ['a', ' '] "a cat".toList = [0] by decide] at this; simpa using this
        · rw [List.mem_singleton.mp h, show occurrences ['a', ' '] "a hat".toList = [0] by decide] at this
          simpa using this
      have := ho i hi; have := ho j hj; omega)
  refine ⟨s1, s', r, _, by rw [e1, Option.bind_some, e4], h1, ?_, ?_⟩
  · rw [export_flat h2]; rfl
  · obtain ⟨a, b⟩ := r
    have ha : a = 2 := h3
    have hb : a + b = 2 := h4
    subst ha
    have : b = 0 := by omega
    subst this; rfl

/-- Typing in an earlier paragraph leaves the stored positions of the later ones behind, and the
replacement then changes the wrong character: in "ab", "cde" type "x" at the start and replace "c" by
"Z": the "d" is replaced. -/
theorem C36_stale_positions_fails : ∃ (s s' : Store) (r : ReplaceResult) (snap : Snapshot),
    ((Store.newStore.bind fun s => s.importPlainText "ab\ncde".toList).bind fun s =>
      (s.insertText ⟨0, 0, ['x']⟩).map fun r => r.1) = some s ∧
    s.exportPlainText = some "xab\ncde".toList ∧
    s.replaceText plainSearch ⟨['c'], ['Z'], true, true, false, false⟩ = some (s', r, snap) ∧
    r.replaced = 1 ∧ s'.exportPlainText = some "xab\ncZe".toList := by
  refine ⟨_, _, _, _, rfl, ?_, rfl, ?_, ?_⟩ <;> decide +kernel

/-- Overlapping occurrences are all replaced, from the last to the first, which mangles the text:
"aa" → "bbb" in "aaa" gives "bbbbb", two replacements, and a character count of 5. -/
theorem C36_overlap_fails : ∃ (s s' : Store) (r : ReplaceResult) (snap : Snapshot),
    (Store.newStore.bind fun s => s.importPlainText "aaa".toList) = some s ∧
    s.replaceText plainSearch ⟨['a', 'a'], ['b', 'b', 'b'], true, true, false, false⟩ = some (s', r, snap) ∧
    r.replaced = 2 ∧ s'.exportPlainText = some "bbbbb".toList ∧
    replacePara ['a', 'a'] ['b', 'b', 'b'] (plainPara 2 "aaa".toList) = plainPara 2 "bbba".toList := by
  refine ⟨_, _, _, _, rfl, rfl, ?_, ?_, ?_⟩ <;> decide +kernel

end Verif

import Verif.Spec.Index
namespace Verif

theorem CacheOk.uniq {x : Index} (h : CacheOk x) {i j : Nat} {m : Marker}
    (hi : (x.entries[i]?).map Prod.fst = some m) (hj : (x.entries[j]?).map Prod.fst = some m) :
    i = j := by
  rw [← h.pos] at hi hj
  simp_all

theorem CacheOk.pos_none {x : Index} (h : CacheOk x) {m : Marker}
    (hm : m ∉ x.entries.map Prod.fst) : x.pos m = none := by
  rw [Option.eq_none_iff_forall_ne_some]
  intro i hi
  rw [h.pos] at hi
  apply hm
  simp only [Option.map_eq_some_iff] at hi
  obtain ⟨e, he, rfl⟩ := hi
  exact List.mem_map_of_mem (List.mem_of_getElem? he)

theorem cacheOk_empty : CacheOk Index.empty := ⟨by simp [Index.empty], by simp [Index.empty]⟩

theorem filter_insertIdx_length (l : List (Marker × Nat)) (p : Nat) (e : Marker × Nat)
    (h : p ≤ l.length) :
    ((l.insertIdx p e).filter fun e => e.1.isTable).length =
      (l.filter fun e => e.1.isTable).length + (if e.1.isTable then 1 else 0) := by
  induction l generalizing p with
  | nil =>
    have : p = 0 := by simpa using h
    subst this
    simp [List.filter_cons]; split <;> simp
  | cons a l ih =>
    cases p with
    | zero => simp [List.filter_cons]; split <;> split <;> simp
    | succ p =>
      simp only [List.insertIdx_succ_cons, List.filter_cons]
      have := ih p (by simpa using h)
      split <;> simp [this]; omega

theorem cacheOk_insertAt {x x' : Index} {p bs : Nat} {m : Marker} (h : CacheOk x)
    (hm : m ∉ x.entries.map Prod.fst) (hx : x.insertAt p m bs = some x') : CacheOk x' := by
  unfold Index.insertAt at hx
  split at hx
  · rename_i hp
    simp only [Option.some.injEq] at hx
    subst hx
    constructor
    · intro m' i
      simp only [List.getElem?_insertIdx]
      have hm' : ∀ i : Nat, (x.entries[i]?).map Prod.fst ≠ some m := by
        intro i hi
        have := h.pos_none hm
        have := (h.pos m i).mpr hi
        simp_all
      split
      · rename_i heq; subst heq
        constructor
        · intro hi; simp at hi; subst hi; simp; exact hp
        · intro hi
          split at hi
          · exact absurd hi (hm' i)
          · split at hi
            · rename_i h1 h2; simp; omega
            · exact absurd hi (hm' (i - 1))
      · rename_i hne
        constructor
        · intro hi
          simp only [Option.map_eq_some_iff] at hi
          obtain ⟨q, hq, hqi⟩ := hi
          have hq' := (h.pos m' q).mp hq
          split at hqi
          · subst hqi
            rw [if_neg (by omega), if_neg (by omega)]
            simpa using hq'
          · subst hqi
            rw [if_pos (by omega)]
            exact hq'
        · intro hi
          simp only [Option.map_eq_some_iff]
          split at hi
          · exact ⟨i, (h.pos m' i).mpr hi, by rw [if_neg (by omega)]⟩
          · split at hi
            · rename_i h1 h2
              subst h2
              split at hi
              · simp at hi; exact absurd hi.symm hne
              · exact absurd hp (by assumption)
            · exact ⟨i - 1, (h.pos m' (i - 1)).mpr hi, by rw [if_pos (by omega)]; omega⟩
    · simp only
      rw [filter_insertIdx_length _ _ _ hp, h.anchors]
      split <;> simp
  · simp at hx

theorem cacheOk_push {x : Index} {bs : Nat} {m : Marker} (h : CacheOk x)
    (hm : m ∉ x.entries.map Prod.fst) : CacheOk (x.push m bs) := by
  constructor
  · intro m' i
    simp only [Index.push, List.getElem?_append]
    have hnone : ∀ i, x.entries.length ≤ i → x.entries[i]? = none := by
      intro i hi; simpa using hi
    split
    · rename_i heq; subst heq
      constructor
      · intro hi; simp at hi; subst hi; simp
      · intro hi
        split at hi
        · have := (h.pos m' i).mpr hi
          have := h.pos_none hm
          simp_all
        · simp only [Option.map_eq_some_iff] at hi
          obtain ⟨e, he, _⟩ := hi
          have := (List.getElem?_eq_some_iff.mp he).1
          simp at this
          simp; omega
    · rename_i hne
      rw [h.pos]
      split
      · rfl
      · rename_i hl
        rw [hnone i (by omega)]
        constructor
        · intro hi; simp at hi
        · intro hi
          exfalso
          simp only [Option.map_eq_some_iff] at hi
          obtain ⟨e, he, hee⟩ := hi
          have := List.mem_of_getElem? he
          simp at this
          subst this
          exact hne hee.symm
  · simp only [Index.push, List.filter_append, List.length_append, h.anchors]
    split
    · rename_i h1; simp [h1]
    · rename_i h1; simp [h1]

theorem filter_eraseIdx_length (l : List (Marker × Nat)) (p : Nat) (e : Marker × Nat)
    (h : l[p]? = some e) :
    ((l.eraseIdx p).filter fun e => e.1.isTable).length =
      (l.filter fun e => e.1.isTable).length - (if e.1.isTable then 1 else 0) := by
  induction l generalizing p with
  | nil => simp at h
  | cons a l ih =>
    cases p with
    | zero => simp at h; subst h; simp [List.filter_cons]; split <;> simp
    | succ p =>
      simp only [List.getElem?_cons_succ] at h
      have hi := ih p h
      simp only [List.eraseIdx_cons_succ, List.filter_cons]
      split
      · simp only [List.length_cons, hi]
        split
        · have : e ∈ l.filter fun e => e.1.isTable := by
            rw [List.mem_filter]; exact ⟨List.mem_of_getElem? h, by assumption⟩
          have := List.length_pos_of_mem this
          omega
        · omega
      · exact hi

theorem cacheOk_removeAt {x x' : Index} {p : Nat} (h : CacheOk x)
    (hx : x.removeAt p = some x') : CacheOk x' := by
  unfold Index.removeAt at hx
  split at hx
  · simp at hx
  · rename_i m b hp
    simp only [Option.some.injEq] at hx
    subst hx
    constructor
    · intro m' i
      simp only [List.getElem?_eraseIdx]
      have hpm : (x.entries[p]?).map Prod.fst = some m := by simp [hp]
      split
      · rename_i heq; subst heq
        constructor
        · intro hi; simp at hi
        · intro hi
          split at hi
          · have := h.uniq hi hpm; omega
          · have := h.uniq hi hpm; omega
      · rename_i hne
        constructor
        · intro hi
          simp only [Option.map_eq_some_iff] at hi
          obtain ⟨q, hq, hqi⟩ := hi
          have hq' := (h.pos m' q).mp hq
          have : q ≠ p := by rintro rfl; rw [hpm] at hq'; simp at hq'; exact hne hq'.symm
          split at hqi
          · subst hqi
            rw [if_neg (by omega)]
            have : q - 1 + 1 = q := by omega
            rw [this]; exact hq'
          · subst hqi
            rw [if_pos (by omega)]; exact hq'
        · intro hi
          simp only [Option.map_eq_some_iff]
          split at hi
          · exact ⟨i, (h.pos m' i).mpr hi, by rw [if_neg (by omega)]⟩
          · exact ⟨i + 1, (h.pos m' (i + 1)).mpr hi, by rw [if_pos (by omega)]; omega⟩
    · simp only
      rw [filter_eraseIdx_length _ _ _ hp, h.anchors]
      split <;> simp

theorem cacheOk_drainInclusive {x x' : Index} {s e : Nat} (h : CacheOk x)
    (hx : x.drainInclusive s e = some x') : CacheOk x' := by
  unfold Index.drainInclusive at hx
  split at hx
  · rename_i hg
    simp only [Option.some.injEq] at hx
    subst hx
    have hlen : ((x.entries.drop s).take (e + 1 - s)).length = e + 1 - s := by
      simp; omega
    have hmem : ∀ m, m ∈ ((x.entries.drop s).take (e + 1 - s)).map Prod.fst ↔
        ∃ i, s ≤ i ∧ i ≤ e ∧ (x.entries[i]?).map Prod.fst = some m := by
      intro m
      simp only [List.mem_map]
      constructor
      · rintro ⟨a, ha, rfl⟩
        obtain ⟨i, hi, hia⟩ := List.getElem_of_mem ha
        rw [hlen] at hi
        refine ⟨s + i, by omega, by omega, ?_⟩
        simp only [List.getElem_take, List.getElem_drop] at hia
        rw [List.getElem?_eq_getElem (by omega), hia]; rfl
      · rintro ⟨i, h1, h2, h3⟩
        simp only [Option.map_eq_some_iff] at h3
        obtain ⟨a, ha, rfl⟩ := h3
        refine ⟨a, ?_, rfl⟩
        apply List.mem_of_getElem? (i := i - s)
        rw [List.getElem?_take, if_pos (by omega), List.getElem?_drop]
        have : s + (i - s) = i := by omega
        rw [this, ha]
    constructor
    · intro m' i
      simp only [hlen]
      have hget : (x.entries.take s ++ x.entries.drop (e + 1))[i]? =
          if i < s then x.entries[i]? else x.entries[i + (e + 1 - s)]? := by
        rw [List.getElem?_append]
        have hl : (x.entries.take s).length = s := by simp; omega
        rw [hl]
        split
        · rw [List.getElem?_take, if_pos (by omega)]
        · rw [List.getElem?_drop]; congr 1; omega
      rw [hget]
      split
      · rename_i hin
        obtain ⟨k, hk1, hk2, hk3⟩ := (hmem m').mp hin
        constructor
        · intro hi; simp at hi
        · intro hi
          split at hi
          · have := h.uniq hi hk3; omega
          · have := h.uniq hi hk3; omega
      · rename_i hnin
        constructor
        · intro hi
          simp only [Option.map_eq_some_iff] at hi
          obtain ⟨q, hq, hqi⟩ := hi
          have hq' := (h.pos m' q).mp hq
          have : ¬ (s ≤ q ∧ q ≤ e) := fun hc => hnin ((hmem m').mpr ⟨q, hc.1, hc.2, hq'⟩)
          split at hqi
          · subst hqi
            rw [if_neg (by omega)]
            have : q - (e + 1 - s) + (e + 1 - s) = q := by omega
            rw [this]; exact hq'
          · subst hqi
            rw [if_pos (by omega)]; exact hq'
        · intro hi
          simp only [Option.map_eq_some_iff]
          split at hi
          · exact ⟨i, (h.pos m' i).mpr hi, by rw [if_neg (by omega)]⟩
          · exact ⟨i + (e + 1 - s), (h.pos m' _).mpr hi, by rw [if_pos (by omega)]; omega⟩
    · simp only
      rw [h.anchors]
      have hsplit : x.entries = x.entries.take s ++ ((x.entries.drop s).take (e + 1 - s) ++
          x.entries.drop (e + 1)) := by
        have h1 : x.entries.drop (e + 1) = (x.entries.drop s).drop (e + 1 - s) := by
          rw [List.drop_drop]; congr 1; omega
        rw [h1, List.take_append_drop, List.take_append_drop]
      conv => lhs; lhs; rw [hsplit]
      simp only [List.filter_append, List.length_append]
      omega
  · simp at hx

theorem cacheOk_setTotal {x : Index} (n : Nat) (h : CacheOk x) : CacheOk (x.setTotal n) :=
  ⟨h.pos, h.anchors⟩

theorem mapM_applyDelta_keys {l tl : List (Marker × Nat)} {d : Int}
    (h : (l.mapM fun e => (applyDelta e.2 d).map fun v => (e.1, v)) = some tl) :
    tl.map Prod.fst = l.map Prod.fst := by
  induction l generalizing tl with
  | nil => simp at h; simp [h]
  | cons a l ih =>
    simp only [List.mapM_cons, Option.bind_eq_bind, Option.bind_eq_some_iff,
      Option.map_eq_some_iff, Option.pure_def, Option.some.injEq] at h
    obtain ⟨x, ⟨v, _, rfl⟩, y, hy, rfl⟩ := h
    simp [ih hy]

theorem shiftAfter_keys {x x' : Index} {t : Nat} {d : Int} (h : x.shiftAfter t d = some x') :
    x'.entries.map Prod.fst = x.entries.map Prod.fst ∧ x'.pos = x.pos ∧ x'.anchors = x.anchors := by
  unfold Index.shiftAfter at h
  simp only [Option.bind_eq_some_iff, Option.map_eq_some_iff] at h
  obtain ⟨tl, htl, t, _, rfl⟩ := h
  refine ⟨?_, rfl, rfl⟩
  simp only [List.map_append]
  rw [mapM_applyDelta_keys htl, ← List.map_append, List.take_append_drop]

theorem anchors_eq_keys (l : List (Marker × Nat)) :
    (l.filter fun e => e.1.isTable).length = ((l.map Prod.fst).filter Marker.isTable).length := by
  rw [List.filter_map, List.length_map]; rfl

theorem cacheOk_of_keys {x x' : Index} (h : CacheOk x)
    (hk : x'.entries.map Prod.fst = x.entries.map Prod.fst) (hp : x'.pos = x.pos)
    (ha : x'.anchors = x.anchors) : CacheOk x' := by
  constructor
  · intro m i
    rw [hp, h.pos, ← List.getElem?_map, ← List.getElem?_map, hk]
  · rw [ha, h.anchors, anchors_eq_keys, anchors_eq_keys, hk]

theorem cacheOk_shiftAfter {x x' : Index} {t : Nat} {d : Int} (h : CacheOk x)
    (hx : x.shiftAfter t d = some x') : CacheOk x' := by
  obtain ⟨h1, h2, h3⟩ := shiftAfter_keys hx
  exact cacheOk_of_keys h h1 h2 h3

theorem rebuildPos_aux (l : List (Marker × Nat)) (k : Nat) (acc : Marker → Option Nat) (m : Marker)
    (hnd : (l.map Prod.fst).Nodup) :
    ((l.zipIdx k).foldl (fun acc p m => if m = p.1.1 then some p.2 else acc m) acc) m =
      if m ∈ l.map Prod.fst then some (k + l.findIdx (fun e => e.1 = m)) else acc m := by
  induction l generalizing k acc with
  | nil => simp
  | cons a l ih =>
    simp only [List.map_cons, List.nodup_cons] at hnd
    simp only [List.zipIdx_cons, List.foldl_cons]
    rw [ih _ _ hnd.2]
    by_cases hm : m = a.1
    · subst hm
      rw [if_neg hnd.1]
      simp [List.findIdx_cons]
    · have hm' : a.1 ≠ m := fun h => hm h.symm
      rw [if_neg hm]
      by_cases hin : m ∈ l.map Prod.fst
      · rw [if_pos hin, if_pos (by simp only [List.map_cons, List.mem_cons]; exact Or.inr hin)]
        simp only [List.findIdx_cons, hm', decide_false, cond_false, Option.some.injEq]
        omega
      · rw [if_neg hin, if_neg (by
          simp only [List.map_cons, List.mem_cons]; exact fun h => h.elim hm hin)]

/-- `rebuild_marker_index` establishes the cache invariant on any index without duplicate
markers. -/
theorem cacheOk_rebuild {x : Index} (hnd : (x.entries.map Prod.fst).Nodup) : CacheOk x.rebuild := by
  constructor
  · intro m i
    simp only [Index.rebuild, rebuildPos]
    rw [rebuildPos_aux _ _ _ _ hnd]
    have hkey : (x.entries[i]?).map Prod.fst = (x.entries.map Prod.fst)[i]? := by simp
    constructor
    · intro h
      split at h
      · rename_i hin
        simp only [Nat.zero_add, Option.some.injEq] at h
        subst h
        have hlt : x.entries.findIdx (fun e => decide (e.1 = m)) < x.entries.length := by
          rw [List.findIdx_lt_length]
          simp only [List.mem_map] at hin
          obtain ⟨e, he, rfl⟩ := hin
          exact ⟨e, he, by simp⟩
        have := List.findIdx_getElem (w := hlt)
        rw [List.getElem?_eq_getElem hlt]
        simpa using this
      · simp at h
    · intro h
      have hin : m ∈ x.entries.map Prod.fst := by
        rw [hkey] at h; exact List.mem_of_getElem? h
      rw [if_pos hin]
      simp only [Nat.zero_add, Option.some.injEq]
      have hlt : x.entries.findIdx (fun e => decide (e.1 = m)) < x.entries.length := by
        rw [List.findIdx_lt_length]
        simp only [List.mem_map] at hin
        obtain ⟨e, he, rfl⟩ := hin
        exact ⟨e, he, by simp⟩
      have h2 := List.findIdx_getElem (w := hlt)
      have h3 : (x.entries.map Prod.fst)[x.entries.findIdx (fun e => decide (e.1 = m))]? = some m := by
        rw [List.getElem?_map, List.getElem?_eq_getElem hlt]
        simpa using h2
      rw [hkey] at h
      have hi : i < (x.entries.map Prod.fst).length := (List.getElem?_eq_some_iff.mp h).1
      exact (List.getElem?_inj (List.length_map (f := Prod.fst) ▸ hlt) hnd).mp (h3.trans h.symm)
  · simp [Index.rebuild]

end Verif

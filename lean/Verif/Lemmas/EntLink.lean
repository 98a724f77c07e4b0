import Verif.Lemmas.EntAdd
/-
Setting a relationship keeps a store in good order; taking away what was created brings the store
back that it was created in.
-/
namespace Verif

theorem entId_write (r : RelField) (e : Ent r.left) (ids : List Nat) :
    entId r.left (r.write e ids) = entId r.left e := by cases r <;> rfl

theorem head_toList {α : Type} (l : List α) : ∀ x ∈ l.head?.toList, x ∈ l := by
  cases l <;> simp

theorem owns_write (r : RelField) (e : Ent r.left) (ids : List Nat) :
    ∀ p ∈ owns r.left (r.write e ids), p ∈ owns r.left e ∨ (p.1 = r.right ∧ p.2 ∈ ids) := by
  intro p hp
  cases r with
  | rootDocument =>
    cases ids with
    | nil => simp [owns, RelField.write] at hp
    | cons a l =>
      by_cases h0 : a = 0
      · simp [owns, RelField.write, h0] at hp
      · simp only [owns, RelField.write, List.head?_cons, Option.getD_some, h0, if_false,
          List.mem_singleton] at hp
        subst hp
        exact .inr ⟨rfl, .head _⟩
  | _ =>
    simp only [owns, RelField.write, List.mem_append, List.mem_map] at hp ⊢
    simp only [RelField.right]
    grind

theorem mentions_write (r : RelField) (e : Ent r.left) (ids : List Nat) :
    ∀ p ∈ mentions r.left (r.write e ids), p ∈ mentions r.left e ∨ (p.1 = r.right ∧ p.2 ∈ ids) := by
  intro p hp
  cases r with
  | frameParent =>
    simp only [mentions, RelField.write, List.mem_append, List.mem_map] at hp ⊢
    rcases hp with ⟨a, ha, rfl⟩ | h
    · exact .inr ⟨rfl, head_toList _ _ ha⟩
    · exact .inl (.inr h)
  | frameTable =>
    simp only [mentions, RelField.write, List.mem_append, List.mem_map] at hp ⊢
    rcases hp with h | ⟨a, ha, rfl⟩
    · exact .inl (.inl h)
    · exact .inr ⟨rfl, head_toList _ _ ha⟩
  | blockList =>
    simp only [mentions, RelField.write, List.mem_map] at hp ⊢
    obtain ⟨a, ha, rfl⟩ := hp
    exact .inr ⟨rfl, head_toList _ _ ha⟩
  | cellFrame =>
    simp only [mentions, RelField.write, List.mem_map] at hp ⊢
    obtain ⟨a, ha, rfl⟩ := hp
    exact .inr ⟨rfl, head_toList _ _ ha⟩
  | _ => exact .inl hp

theorem orders_write (r : RelField) (e : Ent r.left) (ids : List Nat)
    (hb : r = .frameBlocks → ids.Nodup ∧ ∀ i ∈ r.read e, i ∈ ids) (h : OrdersOwn r.left e) :
    OrdersOwn r.left (r.write e ids) := by
  cases r with
  | frameBlocks => exact ⟨(hb rfl).1, fun j hj h0 => (hb rfl).2 _ (h.2 j hj h0)⟩
  | frameParent => exact h
  | frameTable => exact h
  | _ => trivial

theorem insertIdsAt_nodup {l ids : List Nat} {index : Int} (h : l.Nodup) (h' : ids.Nodup)
    (hd : ∀ i ∈ ids, i ∉ l) : (insertIdsAt l index ids).Nodup := by
  unfold insertIdsAt
  split
  · have hp : (l.take index.toNat ++ ids ++ l.drop index.toNat).Perm (l ++ ids) := by
      refine (List.Perm.append_right _ List.perm_append_comm).trans ?_
      rw [List.append_assoc, List.take_append_drop]
      exact List.perm_append_comm
    rw [hp.nodup_iff, List.nodup_append]
    exact ⟨h, h', fun a ha b hb e => hd b hb (e ▸ ha)⟩
  · rw [List.nodup_append]
    exact ⟨h, h', fun a ha b hb e => hd b hb (e ▸ ha)⟩

theorem Tidy.blocksOnce {s : Store} (h : Tidy s) {r : RelField} (hr : r = .frameBlocks) (o : Nat) :
    (s.readRel r o).Nodup := by
  subst hr
  unfold Store.readRel
  cases he : s.tab RelField.frameBlocks.left o with
  | none => exact List.nodup_nil
  | some e => exact (h.refs .frame o e he).orders.1

/-- What `setRel` does when it succeeds on an entity that exists. -/
theorem setRel_some {s t : Store} {r : RelField} {o : Nat} {ids : List Nat}
    (h : s.setRel r o ids = some t) :
    (∀ i ∈ ids, (s.tab r.right i).isSome = true) ∧
    (r = .rootDocument → ids.head?.all (fun d => s.soleDoc o d) = true) ∧
    match s.tab r.left o with
    | some e => t = s.withTab r.left ((s.tab r.left).insert o (r.write e ids))
    | none => t = s := by
  unfold Store.setRel at h
  split at h
  · rename_i ha
    split at h
    · cases h
    · rename_i hb
      refine ⟨by simpa [List.all_eq_true] using ha, ?_, ?_⟩
      · intro hr
        by_cases hh : (ids.head?.all fun d => s.soleDoc o d) = true
        · exact hh
        · exact absurd ⟨hr, by simpa using hh⟩ hb
      · cases he : s.tab r.left o with
        | none => simp only [he, Option.some.injEq] at h; exact h.symm
        | some e => simp only [he, Option.some.injEq] at h; exact h.symm
  · cases h

theorem setRel_ok {s : Store} {r : RelField} {o : Nat} {ids : List Nat}
    (h1 : ∀ i ∈ ids, (s.tab r.right i).isSome = true)
    (h2 : r = .rootDocument → ids.head?.all (fun d => s.soleDoc o d) = true) :
    s.setRel r o ids = some (match s.tab r.left o with
      | some e => s.withTab r.left ((s.tab r.left).insert o (r.write e ids))
      | none => s) := by
  unfold Store.setRel
  rw [if_pos (List.all_eq_true.mpr h1), if_neg]
  · cases s.tab r.left o <;> rfl
  · rintro ⟨a, b⟩
    rw [h2 a] at b
    cases b

theorem setRel_tidy {s t : Store} (hs : Tidy s) {r : RelField} {o : Nat} {ids : List Nat}
    (hb : r = .frameBlocks → ids.Nodup ∧ ∀ i ∈ s.readRel r o, i ∈ ids) (h : s.setRel r o ids = some t) :
    Tidy t := by
  obtain ⟨h1, h2, h3⟩ := setRel_some h
  cases he : s.tab r.left o with
  | none => rw [he] at h3; exact h3 ▸ hs
  | some e =>
    rw [he] at h3
    simp only at h3
    have hget : ∀ k i x, t.tab k i = some x → s.tab k i = some x ∨
        ∃ hk : k = r.left, i = o ∧ hk ▸ x = r.write e ids := by
      intro k i x hx
      subst h3
      by_cases hk : k = r.left
      · subst hk
        rw [Store.tab_withTab] at hx
        simp only [IdMap.insert] at hx
        split at hx
        · rename_i hi; cases hx; exact .inr ⟨rfl, hi, rfl⟩
        · exact .inl hx
      · rw [Store.tab_withTab_ne _ _ hk] at hx; exact .inl hx
    have hsome : ∀ k i, (s.tab k i).isSome = true → (t.tab k i).isSome = true := by
      intro k i hi
      subst h3
      by_cases hk : k = r.left
      · subst hk
        rw [Store.tab_withTab]
        simp only [IdMap.insert]
        split
        · rfl
        · exact hi
      · rw [Store.tab_withTab_ne _ _ hk]; exact hi
    have ho0 : o ≠ 0 := by
      rintro rfl; rw [hs.positive] at he; cases he
    obtain ⟨r1, r2, _, _⟩ := withTab_rest s r.left ((s.tab r.left).insert o (r.write e ids))
    refine ⟨?_, ?_, ?_, ?_, ?_, ?_⟩
    · intro k i x hx
      rcases hget k i x hx with h | ⟨rfl, rfl, hw⟩
      · exact hs.keyed k i x h
      · have hw : x = r.write e ids := hw
        subst hw
        rw [entId_write]; exact hs.keyed _ _ _ he
    · intro k
      cases hx : t.tab k 0 with
      | none => rfl
      | some x =>
        rcases hget k 0 x hx with h | ⟨_, h, _⟩
        · rw [hs.positive] at h; cases h
        · exact absurd h.symm ho0
    · intro k i x hx
      rcases hget k i x hx with h | ⟨rfl, rfl, hw⟩
      · exact (hs.refs k i x h).mono hsome
      · have hw : x = r.write e ids := hw
        subst hw
        have q := hs.refs _ _ _ he
        refine ⟨?_, ?_, ?_⟩
        · intro p hp
          rcases owns_write r e ids p hp with h | ⟨h, h'⟩
          · exact hsome _ _ (q.owns p h)
          · rw [h]; exact hsome _ _ (h1 _ h')
        · intro p hp
          rcases mentions_write r e ids p hp with h | ⟨h, h'⟩
          · exact hsome _ _ (q.mentions p h)
          · rw [h]; exact hsome _ _ (h1 _ h')
        · refine orders_write r e ids (fun hr => ⟨(hb hr).1, fun i hi => (hb hr).2 i ?_⟩) q.orders
          simpa [Store.readRel, he] using hi
    · intro i hi
      rw [h3, r1] at hi
      exact hsome .block i (hs.runs i hi)
    · intro i hi
      rw [h3, r2] at hi
      exact hsome .block i (hs.images i hi)
    · by_cases hr : r = .rootDocument
      · subst hr
        have hroot : ∀ j, t.roots j = if j = o then some ((RelField.rootDocument).write e ids) else s.roots j := by
          intro j
          have : t.roots = s.roots.insert o ((RelField.rootDocument).write e ids) := by rw [h3]; rfl
          rw [this]; rfl
        have hd : ∀ j x, j ≠ o → s.roots j = some x → x.document = ids.head?.getD 0 → x.document ≠ 0 → False := by
          intro j x hj hx hxd hx0
          cases ids with
          | nil => simp at hxd; exact hx0 hxd
          | cons d l =>
            have := h2 rfl
            simp only [List.head?_cons, Option.all_some, Store.soleDoc, Bool.or_eq_true, beq_iff_eq,
              List.all_eq_true] at this
            simp only [List.head?_cons, Option.getD_some] at hxd
            rcases this with h | h
            · exact hx0 (hxd.trans h)
            · rcases h j ((s.roots.mem j).mpr (by simp [hx])) with h | h
              · exact hj h
              · simp [hx, hxd] at h
        intro i j x y hx hy hxy h0
        rw [hroot] at hx hy
        by_cases hi : i = o <;> by_cases hj : j = o
        · rw [hi, hj]
        · rw [if_pos hi] at hx
          rw [if_neg hj] at hy
          cases hx
          exact (hd j y hj hy hxy.symm (hxy ▸ h0)).elim
        · rw [if_neg hi] at hx
          rw [if_pos hj] at hy
          cases hy
          exact (hd i x hi hx hxy h0).elim
        · rw [if_neg hi] at hx
          rw [if_neg hj] at hy
          exact hs.sole i j x y hx hy hxy h0
      · have : t.roots = s.roots := by
          rw [h3]
          cases r <;> first | exact absurd rfl hr | rfl
        rw [this]; exact hs.sole

theorem setRel_counters {s t : Store} {r : RelField} {o : Nat} {ids : List Nat}
    (h : s.setRel r o ids = some t) : t.counters = s.counters := by
  have h3 := (setRel_some h).2.2
  split at h3
  · rw [h3, Store.withTab_counters]
  · rw [h3]

theorem setRel_isSome {s t : Store} {r : RelField} {o : Nat} {ids : List Nat}
    (h : s.setRel r o ids = some t) (k : EKind) (i : Nat) :
    (t.tab k i).isSome = (s.tab k i).isSome := by
  have h3 := (setRel_some h).2.2
  split at h3
  · rename_i e he
    subst h3
    by_cases hk : k = r.left
    · subst hk
      rw [Store.tab_withTab]
      simp only [IdMap.insert]
      split
      · rename_i hi; simp [hi, he]
      · rfl
    · rw [Store.tab_withTab_ne _ _ hk]
  · rw [h3]

theorem setRel_ahead {s t : Store} (ha : Ahead s) {r : RelField} {o : Nat} {ids : List Nat}
    (h : s.setRel r o ids = some t) : Ahead t := by
  intro k
  rw [setRel_counters h]
  refine ⟨(ha k).1, fun i hi => (ha k).2 i ?_⟩
  rwa [setRel_isSome h] at hi

/-! ### Taking away what was created -/

theorem Forgot.det {g : EKind → Nat → Bool} {s t t' : Store} (h : Forgot g s t) (h' : Forgot g s t') :
    t.content = t'.content :=
  Store.content_ext (h.rope.trans h'.rope.symm)
    (fun k => IdMap.ext' ((h.keys k).trans (h'.keys k).symm) (fun i => (h.tab k i).trans (h'.tab k i).symm))
    (IdMap.ext' (h.runKeys.trans h'.runKeys.symm) fun i => (h.runs i).trans (h'.runs i).symm)
    (IdMap.ext' (h.imageKeys.trans h'.imageKeys.symm) fun i => (h.images i).trans (h'.images i).symm)
    (h.offsets.trans h'.offsets.symm)

/-- What goes: the new entities. -/
def OnlyNew (g : EKind → Nat → Bool) (k : EKind) (ids : List Nat) : Prop :=
  ∀ k' i, i ≠ 0 → (g k' i = true ↔ k' = k ∧ i ∈ ids)

theorem OnlyNew.old {g : EKind → Nat → Bool} {s : Store} (hs : Tidy s) {k : EKind} {es : List (Ent k)}
    (hf : Fresh s k es) (hg : OnlyNew g k (es.map (entId k))) {k' : EKind} {i : Nat}
    (hi : (s.tab k' i).isSome = true) : g k' i = false := by
  have h0 : i ≠ 0 := by rintro rfl; rw [hs.positive] at hi; cases hi
  cases hb : g k' i with
  | false => rfl
  | true =>
    obtain ⟨rfl, hm⟩ := (hg k' i h0).mp hb
    obtain ⟨e, he, rfl⟩ := List.mem_map.mp hm
    rw [hf.absent e he] at hi
    cases hi

theorem OnlyNew.forget {g : EKind → Nat → Bool} {s : Store} (hs : Tidy s) {k : EKind} {es : List (Ent k)}
    (hf : Fresh s k es) (hg : OnlyNew g k (es.map (entId k))) {k' : EKind} {i : Nat} {e : Ent k'}
    (he : s.tab k' i = some e) : forget g k' e = e := by
  have q := hs.refs k' i e he
  exact forget_same (fun p hp => hg.old hs hf (q.owns p hp)) (fun p hp => hg.old hs hf (q.mentions p hp))
    q.orders

/-- Forgetting what was created brings back the store it was created in. -/
theorem Added.back {s t : Store} {k : EKind} {es : List (Ent k)} (hs : Tidy s) (hf : Fresh s k es)
    (h : Added s k es t) (hn : t.counters = s.counters) {g : EKind → Nat → Bool}
    (hg : OnlyNew g k (es.map (entId k))) : Forgot g t s := by
  have hold : ∀ k' i, (s.tab k' i).isSome = true → g k' i = false := fun k' i hi => hg.old hs hf hi
  have hnone : ∀ k' i, g k' i = true → s.tab k' i = none := by
    intro k' i hb
    cases hx : s.tab k' i with
    | none => rfl
    | some x => rw [hold k' i (by simp [hx])] at hb; cases hb
  refine ⟨?_, ?_, ?_, ?_, ?_, ?_, h.rope.symm, h.offsets.symm, hn.symm⟩
  · intro k' i
    cases hb : g k' i with
    | true => rw [if_pos rfl, hnone k' i hb]
    | false =>
      rw [if_neg (by simp)]
      have hsame : t.tab k' i = s.tab k' i := by
        by_cases hk : k' = k
        · subst hk
          refine h.old i ?_
          intro hm
          obtain ⟨e, he, rfl⟩ := List.mem_map.mp hm
          have := (hg k' _ (hf.pos e he)).mpr ⟨rfl, hm⟩
          rw [hb] at this; cases this
        · rw [h.others k' hk]
      rw [hsame]
      cases hx : s.tab k' i with
      | none => rfl
      | some x => rw [Option.map_some, hg.forget hs hf hx]
  · intro k'
    have hk1 : (s.tab k').keys.filter (fun i => !g k' i) = (s.tab k').keys := by
      rw [List.filter_eq_self]
      intro i hi
      simp [hold k' i (((s.tab k').mem i).mp hi)]
    by_cases hk : k' = k
    · subst hk
      rw [h.keys, List.filter_append, hk1]
      have : (es.map (entId k')).filter (fun i => !g k' i) = [] := by
        rw [List.filter_eq_nil_iff]
        intro i hi
        obtain ⟨e, he, rfl⟩ := List.mem_map.mp hi
        simp [(hg k' _ (hf.pos e he)).mpr ⟨rfl, hi⟩]
      rw [this, List.append_nil]
    · rw [h.others k' hk, hk1]
  · intro i
    rw [h.runs]
    cases hb : g .block i with
    | false => simp
    | true =>
      cases hx : s.formatRuns i with
      | none => simp
      | some x =>
        have := hs.runs i (by simp [hx])
        rw [show s.blocks i = none from hnone .block i hb] at this; cases this
  · rw [h.runs]; symm
    rw [List.filter_eq_self]
    intro i hi
    simp [hold .block i (hs.runs i ((s.formatRuns.mem i).mp hi))]
  · intro i
    rw [h.images]
    cases hb : g .block i with
    | false => simp
    | true =>
      cases hx : s.blockImages i with
      | none => simp
      | some x =>
        have := hs.images i (by simp [hx])
        rw [show s.blocks i = none from hnone .block i hb] at this; cases this
  · rw [h.images]; symm
    rw [List.filter_eq_self]
    intro i hi
    simp [hold .block i (hs.images i ((s.blockImages.mem i).mp hi))]

end Verif

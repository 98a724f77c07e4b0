import Verif.Lemmas.EntLink
/-
Creating entities inside an owner, and undoing that.
-/
namespace Verif

theorem write_write (r : RelField) (e : Ent r.left) (l : List Nat) :
    r.write (r.write e l) l = r.write e l := by cases r <;> rfl

/-- Setting a field twice is setting it once. -/
theorem setRel_again {s t : Store} {r : RelField} {o : Nat} {ids : List Nat}
    (h : s.setRel r o ids = some t) : t.setRel r o ids = some t := by
  obtain ⟨h1, h2, h3⟩ := setRel_some h
  rw [setRel_ok (r := r) (fun i hi => by rw [setRel_isSome h]; exact h1 i hi)]
  · cases he : s.tab r.left o with
    | none =>
      rw [he] at h3
      simp only at h3
      subst h3
      rw [he]
    | some e =>
      rw [he] at h3
      simp only at h3
      have : t.tab r.left o = some (r.write e ids) := by
        rw [h3, Store.tab_withTab]; simp [IdMap.insert]
      rw [this]
      simp only [write_write, IdMap.insert_same _ this, Store.withTab_tab]
  · rintro rfl
    have := h2 rfl
    cases ids with
    | nil => rfl
    | cons d l =>
      simp only [List.head?_cons, Option.all_some, Store.soleDoc, Bool.or_eq_true, beq_iff_eq,
        List.all_eq_true] at this ⊢
      rcases this with hd | hd
      · exact .inl hd
      · refine .inr ?_
        intro j hj
        by_cases hjo : j = o
        · exact .inl hjo
        · have hr : t.roots j = s.roots j := by
            split at h3
            · rename_i e he
              have : t.roots = s.roots.insert o ((RelField.rootDocument).write e (d :: l)) := by
                rw [h3]; rfl
              rw [this]; simp [IdMap.insert, hjo]
            · rw [h3]
          rw [hr]
          refine hd j ((s.roots.mem j).mpr ?_)
          rw [← hr]; exact (t.roots.mem j).mp hj

theorem insertIdsAt_mem {l ids : List Nat} {index : Int} {i : Nat} :
    i ∈ insertIdsAt l index ids ↔ i ∈ l ∨ i ∈ ids := by
  unfold insertIdsAt
  split
  · simp only [List.mem_append]
    constructor
    · rintro ((h | h) | h)
      · exact .inl (List.mem_of_mem_take h)
      · exact .inr h
      · exact .inl (List.mem_of_mem_drop h)
    · rintro (h | h)
      · rw [← List.take_append_drop index.toNat l, List.mem_append] at h
        rcases h with h | h
        · exact .inl (.inl h)
        · exact .inr h
      · exact .inl (.inr h)
  · simp

theorem insertIdsAt_filter {l ids : List Nat} {index : Int} {p : Nat → Bool}
    (hl : ∀ i ∈ l, p i = true) (hi : ∀ i ∈ ids, p i = false) :
    (insertIdsAt l index ids).filter p = l := by
  have h1 : ids.filter p = [] := List.filter_eq_nil_iff.mpr (by simpa using hi)
  unfold insertIdsAt
  split
  · rw [List.filter_append, List.filter_append, h1, List.append_nil, ← List.filter_append,
      List.take_append_drop]
    exact List.filter_eq_self.mpr hl
  · rw [List.filter_append, h1, List.append_nil]
    exact List.filter_eq_self.mpr hl

theorem forget_write_owner {k : EKind} {r : RelField} (hr : k.owner = some r) (hk : k ≠ .document)
    (g : EKind → Nat → Bool) (e : Ent r.left) (l : List Nat) :
    forget g r.left (r.write e l) = r.write (forget g r.left e) (l.filter fun i => !g r.right i) := by
  cases k <;> simp only [EKind.owner, Option.some.injEq, reduceCtorEq] at hr <;>
    first | exact absurd rfl hk | (subst hr; rfl)
  
/-- One entry of a store changed, which becomes the old one when `g` is forgotten. -/
theorem forgot_of_link {g : EKind → Nat → Bool} {s t u : Store} (h : Forgot g t s) {k : EKind} {o : Nat}
    {e e' : Ent k} (he : t.tab k o = some e) (hu : u = t.withTab k ((t.tab k).insert o e'))
    (hf : forget g k e' = forget g k e) : Forgot g u s := by
  obtain ⟨r1, r2, r3, r4⟩ := withTab_rest t k ((t.tab k).insert o e')
  refine ⟨?_, ?_, ?_, ?_, ?_, ?_, ?_, ?_, ?_⟩
  · intro k' i
    rw [h.tab]
    by_cases hk : k' = k
    · subst hk
      rw [hu, Store.tab_withTab]
      simp only [IdMap.insert]
      by_cases hi : i = o
      · subst hi
        simp [he, hf]
      · simp [hi]
    · rw [hu, Store.tab_withTab_ne _ _ hk]
  · intro k'
    rw [h.keys]
    by_cases hk : k' = k
    · subst hk
      rw [hu, Store.tab_withTab]
      simp [IdMap.insert, he]
    · rw [hu, Store.tab_withTab_ne _ _ hk]
  · rw [hu, r1]; exact h.runs
  · rw [hu, r1]; exact h.runKeys
  · rw [hu, r2]; exact h.images
  · rw [hu, r2]; exact h.imageKeys
  · rw [hu, r3]; exact h.rope
  · rw [hu, r4]; exact h.offsets
  · rw [hu, Store.withTab_counters]; exact h.counters

/-- Linking what was created into its owner is undone by forgetting it too. -/
theorem Added.link_back {s t u : Store} {k : EKind} {es : List (Ent k)} {r : RelField}
    (hr : k.owner = some r) (hk : k ≠ .document) (hs : Tidy s) (hf : Fresh s k es)
    (h : Added s k es t) (hn : t.counters = s.counters) {g : EKind → Nat → Bool}
    (hg : OnlyNew g k (es.map (entId k))) {o : Nat} {index : Int}
    (hu : t.setRel r o (insertIdsAt (t.readRel r o) index (es.map (entId k))) = some u) :
    Forgot g u s := by
  have hb := h.back hs hf hn hg
  obtain ⟨hr1, hr2⟩ := owner_right hr
  have h3 := (setRel_some hu).2.2
  split at h3
  · rename_i e he
    refine forgot_of_link hb he h3 ?_
    have hes : s.tab r.left o = some e := by rw [← h.others r.left hr2]; exact he
    have hl : (insertIdsAt (t.readRel r o) index (es.map (entId k))).filter (fun i => !g r.right i) =
        r.read e := by
      have : t.readRel r o = r.read e := by simp [Store.readRel, he]
      rw [this]
      refine insertIdsAt_filter ?_ ?_
      · intro i hi
        rw [hg.old hs hf (hs.linked (r := r) (o := o) (by simpa [Store.readRel, hes] using hi))]
        rfl
      · intro i hi
        obtain ⟨e', he', rfl⟩ := List.mem_map.mp hi
        simp [(hg r.right _ (hf.pos e' he')).mpr ⟨hr1, hi⟩]
    rw [forget_write_owner hr hk, hl, hg.forget hs hf hes, write_read]
  · rw [h3]; exact hb

/-- The same for a document put into an empty root. -/
theorem Added.link_back_document {s t u : Store} {es : List (Ent .document)} (hne : es ≠ [])
    (hs : Tidy s) (hf : Fresh s .document es) (h : Added s .document es t)
    (hn : t.counters = s.counters) {g : EKind → Nat → Bool}
    (hg : OnlyNew g .document (es.map (entId .document))) {o : Nat}
    (hp : t.readRel .rootDocument o = [])
    (hu : t.setRel .rootDocument o (es.map (entId .document)) = some u) : Forgot g u s := by
  have hb := h.back hs hf hn hg
  have h3 := (setRel_some hu).2.2
  split at h3
  · rename_i e he
    refine forgot_of_link hb he h3 ?_
    cases es with
    | nil => exact absurd rfl hne
    | cons d ds =>
      obtain ⟨i, di⟩ := (e : Root)
      have hd0 : di = 0 := by
        simp only [Store.readRel, he, Option.map_some, Option.getD_some, RelField.read] at hp
        by_cases h0 : di = 0
        · exact h0
        · simp [h0] at hp
      have hgd : g .document (entId .document d) = true :=
        (hg .document _ (hf.pos d (.head _))).mpr ⟨rfl, .head _⟩
      simp [forget, RelField.write, hgd, hd0]
  · rw [h3]; exact hb

/-- No document goes with a document. -/
theorem Goes.document {s : Store} {ids : List Nat} {k' : EKind} {i : Nat}
    (h : Goes s .document ids k' i) : k' ≠ .root ∧ (k' = .document → i ∈ ids) := by
  induction h with
  | self hi => exact ⟨by decide, fun _ => hi⟩
  | @owned k' k'' o i e _ he hp ih =>
    have hk := ih.1
    cases k' with
    | root => exact absurd rfl hk
    | document =>
      simp only [owns, List.mem_append, List.mem_map, Prod.mk.injEq] at hp
      rcases hp with ((⟨_, _, rfl, _⟩ | ⟨_, _, rfl, _⟩) | ⟨_, _, rfl, _⟩) | ⟨_, _, rfl, _⟩ <;>
        exact ⟨by decide, by intro h; cases h⟩
    | frame =>
      simp only [owns, List.mem_map, Prod.mk.injEq] at hp
      obtain ⟨_, _, rfl, _⟩ := hp
      exact ⟨by decide, by intro h; cases h⟩
    | table =>
      simp only [owns, List.mem_map, Prod.mk.injEq] at hp
      obtain ⟨_, _, rfl, _⟩ := hp
      exact ⟨by decide, by intro h; cases h⟩
    | _ => simp [owns] at hp

theorem Forgot.ahead {g : EKind → Nat → Bool} {s t : Store} (h : Forgot g s t) (ha : Ahead s) : Ahead t := by
  intro k
  rw [h.counters]
  refine ⟨(ha k).1, fun i hi => (ha k).2 i ?_⟩
  rw [h.tab] at hi
  split at hi
  · cases hi
  · simpa using hi

/-- The created documents may be linked into the root. -/
theorem document_sole {s t t2 : Store} (hs : Tidy s) {d : Nat} (hd : s.tab .document d = none)
    (hr : t.roots = s.roots) {g : EKind → Nat → Bool} (hg : Forgot g t t2) (o : Nat) :
    t2.soleDoc o d = true := by
  simp only [Store.soleDoc, Bool.or_eq_true, beq_iff_eq, List.all_eq_true]
  by_cases h0 : d = 0
  · exact .inl h0
  refine .inr ?_
  intro j hj
  refine .inr ?_
  cases hx : t2.roots j with
  | none => simp
  | some x =>
    obtain ⟨_, e0, h1, h2⟩ := hg.some (k := .root) hx
    have h1 : t.roots j = some e0 := h1
    rw [hr] at h1
    simp only [Option.map_some, bne_iff_ne, ne_eq, Option.some.injEq]
    intro hxd
    have q := (hs.refs .root j e0 h1).owns
    have hdoc : Root.document x = if g .document (Root.document e0) then 0 else Root.document e0 := by
      rw [h2]; rfl
    rw [hxd] at hdoc
    split at hdoc
    · exact h0 hdoc
    · have := q (.document, d) (by simp [owns, ← hdoc, h0])
      rw [hd] at this
      cases this

end Verif

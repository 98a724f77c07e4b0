import Verif.Spec.Properties
import Verif.Lemmas.UndoView
import Verif.Lemmas.DocKeys
/-
Properties and resources of a document along a history.
-/
namespace Verif

/-! ### Contracts that get weaker -/

theorem Chain.imp {C X : Type} {D E : C → X → X → Prop} (h : ∀ c x y, D c x y → E c x y) {cs : List C}
    {x y : X} (hc : Chain D cs x y) : Chain E cs x y := by
  induction hc with
  | nil => exact .nil
  | cons h1 _ ih => exact .cons (h _ _ _ h1) ih

namespace ViewContract
variable {C S X V : Type} {api : CmdApi C S} {k1 k2 : ViewContract api X V}

theorem Holds.transfer (hview : k1.view = k2.view) (hmark : k1.mark = k2.mark)
    (hD : ∀ c x y, k1.Done c x y → k2.Done c x y) (hU : ∀ c x y, k1.Undone c x y → k2.Undone c x y)
    {P : Nat → Prop} {m : Mgr C} {sid : Option Nat} {s s' : S} {x : X} {t : Timeline V}
    (h : k1.Holds P m sid s x t) (hs : k2.Sees s' x) : k2.Holds P m sid s' x t := by
  obtain ⟨⟨st, xs, h1, h2, h3, h4, h5, h6⟩, h7, h8, h9, h10, _⟩ := h
  have eD : ∀ e x y, k1.EDone e x y → k2.EDone e x y := by
    intro e x y he
    cases e with
    | single c => exact hD _ _ _ he
    | group cs => exact Chain.imp hD he
  have eU : ∀ e x y, k1.EUndone e x y → k2.EUndone e x y := by
    intro e x y he
    cases e with
    | single c => exact hU _ _ _ he
    | group cs => exact Chain.imp hU he
  have eM : ∀ e, k1.Marked P e → k2.Marked P e := by
    intro e he
    cases e with
    | single c => intro o ho; rw [← hmark] at ho; exact he o ho
    | group cs => trivial
  have hp : ∀ es ps y, k1.PastOk es ps y → k2.PastOk es ps y := by
    intro es ps y hh
    induction hh with
    | nil => exact .nil
    | cons a _ ih => exact .cons (eD _ _ _ a) ih
  have hf : ∀ es ps y, k1.FutOk es ps y → k2.FutOk es ps y := by
    intro es ps y hh
    induction hh with
    | nil => exact .nil
    | cons a _ ih => exact .cons (eU _ _ _ a) ih
  exact ⟨⟨st, xs, h1, hp _ _ _ h2, hf _ _ _ h3, by rw [← hview]; exact h4, fun e he => eM e (h5 e he),
    fun e he => eM e (h6 e he)⟩, h7, h8, h9, by rw [← hview]; exact h10, hs⟩

end ViewContract

/-! ### What is seen of a store -/

/-- The properties of a document, its resources with their ids. -/
structure PropState where
  title : String
  direction : TextDirection
  wrap : WrapMode
  files : List (Nat × FileEntry)

/-- Without the ids. -/
def PropState.props (x : PropState) : DocProps := ⟨x.title, x.direction, x.wrap, x.files.map Prod.snd⟩

def PropState.ids (x : PropState) : List Nat := x.files.map Prod.fst

/-- The document entity. -/
def docOf (d : Document) (x : PropState) : Document :=
  { d with title := x.title, textDirection := x.direction, defaultWrapMode := x.wrap, resources := x.ids }

/-- The resource entity. -/
def resourceOf (k : Codec) (i : Nat) (e : FileEntry) : Resource :=
  { id := i, resourceType := e.type, name := e.name, mimeType := e.mime, dataBase64 := k.enc e.data }

def Store.nextResource (s : Store) : Nat := (s.counters "resource").getD 1

/-- The parts that stay. -/
structure RestOf (a b : Store) : Prop where
  rope : b.rope = a.rope
  roots : b.roots = a.roots
  frames : b.frames = a.frames
  blocks : b.blocks = a.blocks
  lists : b.lists = a.lists
  tables : b.tables = a.tables
  tableCells : b.tableCells = a.tableCells
  formatRuns : b.formatRuns = a.formatRuns
  blockImages : b.blockImages = a.blockImages
  blockOffsets : b.blockOffsets = a.blockOffsets

/-- Below `K` every id belongs to the name `N` gives it. -/
structure SeesProps (k : Codec) (s0 : Store) (d : Document) (K : Nat) (N : Nat → String) (s : Store)
    (x : PropState) : Prop where
  document : s.documents d.id = some (docOf d x)
  only : ∀ i, i ≠ d.id → s.documents i = none
  resources : ∀ i, s.resources i = (x.files.lookup i).map (resourceOf k i)
  nodup : x.ids.Nodup
  below : ∀ i ∈ x.ids, i < K
  names : ∀ p ∈ x.files, N p.1 = p.2.name
  bound : K ≤ s.nextResource
  rest : RestOf s0 s

variable {k : Codec} {s0 s : Store} {d : Document} {K K' : Nat} {N N' : Nat → String} {x x' : PropState}

theorem lookup_of_mem {l : List (Nat × FileEntry)} (hn : (l.map Prod.fst).Nodup) {p : Nat × FileEntry}
    (h : p ∈ l) : l.lookup p.1 = some p.2 := by
  induction l with
  | nil => simp at h
  | cons q l ih =>
    simp only [List.map_cons, List.nodup_cons] at hn
    simp only [List.mem_cons] at h
    simp only [List.lookup]
    rcases h with rfl | h
    · simp
    · have : p.1 ≠ q.1 := by
        intro e; exact hn.1 (e ▸ List.mem_map.mpr ⟨p, h, rfl⟩)
      rw [show (p.1 == q.1) = false by simpa using this]
      exact ih hn.2 h

theorem mem_of_lookup {l : List (Nat × FileEntry)} {i : Nat} {e : FileEntry} (h : l.lookup i = some e) :
    (i, e) ∈ l := by
  induction l with
  | nil => simp at h
  | cons q l ih =>
    simp only [List.lookup] at h
    split at h
    · rename_i he
      have : i = q.1 := by simpa using he
      cases h; subst this; simp
    · exact List.mem_cons_of_mem _ (ih h)

theorem lookup_none {l : List (Nat × FileEntry)} {i : Nat} (h : i ∉ l.map Prod.fst) : l.lookup i = none := by
  cases hl : l.lookup i with
  | none => rfl
  | some e => exact absurd (List.mem_map.mpr ⟨_, mem_of_lookup hl, rfl⟩) h

theorem lookup_snoc {l : List (Nat × FileEntry)} {i j : Nat} {e : FileEntry} (h : i ∉ l.map Prod.fst) :
    (l ++ [(i, e)]).lookup j = if j = i then some e else l.lookup j := by
  induction l with
  | nil =>
    by_cases hj : j = i
    · simp [hj]
    · simp [List.lookup, hj, show (j == i) = false by simpa using hj]
  | cons q l ih =>
    simp only [List.map_cons, List.mem_cons, not_or] at h
    simp only [List.cons_append, List.lookup]
    by_cases hq : j = q.1
    · rw [show (j == q.1) = true by simpa using hq]
      simp only
      rw [if_neg (by omega)]
    · rw [show (j == q.1) = false by simpa using hq]
      simp only
      exact ih h.2

theorem SeesProps.weaken (h : SeesProps k s0 d K N s x) (hK : K ≤ K') (hs : K' ≤ s.nextResource)
    (hN : ∀ i, i < K → N' i = N i) : SeesProps k s0 d K' N' s x :=
  ⟨h.document, h.only, h.resources, h.nodup, fun i hi => by have := h.below i hi; omega,
    fun p hp => by
      rw [hN _ (h.below _ (List.mem_map.mpr ⟨p, hp, rfl⟩))]; exact h.names p hp, hs, h.rest⟩

theorem SeesProps.restored (h : SeesProps k s0 d K N s x) (s1 : Store) (hb : K ≤ s1.nextResource) :
    SeesProps k s0 d K N (s1.restoreUndo s.snapshot) x :=
  ⟨h.document, h.only, h.resources, h.nodup, h.below, h.names, hb,
    ⟨h.rest.rope, h.rest.roots, h.rest.frames, h.rest.blocks, h.rest.lists, h.rest.tables,
      h.rest.tableCells, h.rest.formatRuns, h.rest.blockImages, h.rest.blockOffsets⟩⟩

/-- Writing the scalar fields. -/
theorem SeesProps.update (h : SeesProps k s0 d K N s x) (hf : x'.files = x.files) :
    SeesProps k s0 d K N (s.updateDocument (docOf d x')) x' := by
  refine ⟨?_, ?_, ?_, ?_, ?_, ?_, h.bound, ⟨h.rest.rope, h.rest.roots, h.rest.frames, h.rest.blocks,
    h.rest.lists, h.rest.tables, h.rest.tableCells, h.rest.formatRuns, h.rest.blockImages,
    h.rest.blockOffsets⟩⟩
  · show (s.documents.insert _ _) _ = _
    have hid : (docOf d x').id = d.id := rfl
    rw [hid, IdMap.insert_get, if_pos rfl, h.document]
    simp [Store.keepDoc, docOf, PropState.ids, hf]
  · intro i hi
    show (s.documents.insert _ _) _ = _
    rw [IdMap.insert_get, show (docOf d x').id = d.id from rfl, if_neg hi]
    exact h.only i hi
  · intro i; rw [hf]; exact h.resources i
  · rw [PropState.ids, hf]; exact h.nodup
  · rw [PropState.ids, hf]; exact h.below
  · rw [hf]; exact h.names

theorem SeesProps.isSome (h : SeesProps k s0 d K N s x) : (x.ids.all fun i => (s.resources i).isSome) = true := by
  rw [List.all_eq_true]
  intro i hi
  obtain ⟨p, hp, rfl⟩ := List.mem_map.mp hi
  rw [h.resources, lookup_of_mem h.nodup hp]
  rfl

/-- Setting the list the document has already. -/
theorem SeesProps.setSame (h : SeesProps k s0 d K N s x) :
    ∃ s', s.setDocResources d.id x.ids = some s' ∧ SeesProps k s0 d K N s' x := by
  refine ⟨{ s with documents := s.documents.insert d.id { docOf d x with resources := x.ids } }, ?_, ?_⟩
  · rw [Store.setDocResources, if_pos h.isSome, h.document]
  · refine ⟨?_, ?_, h.resources, h.nodup, h.below, h.names, h.bound, ⟨h.rest.rope, h.rest.roots,
      h.rest.frames, h.rest.blocks, h.rest.lists, h.rest.tables, h.rest.tableCells, h.rest.formatRuns,
      h.rest.blockImages, h.rest.blockOffsets⟩⟩
    · show (s.documents.insert _ _) _ = _
      rw [IdMap.insert_get, if_pos rfl]; rfl
    · intro i hi
      show (s.documents.insert _ _) _ = _
      rw [IdMap.insert_get, if_neg hi]; exact h.only i hi

theorem SeesProps.keys (h : SeesProps k s0 d K N s x) (i : Nat) : i ∈ s.documents.keys ↔ i = d.id := by
  rw [s.documents.mem]
  by_cases hi : i = d.id
  · simp [hi, h.document]
  · simp [hi, h.only i hi]

/-- The store once the last resource is gone, whatever is written of the list of its document. -/
theorem SeesProps.dropped {i : Nat} {e : FileEntry} (h : SeesProps k s0 d K N s x')
    (hx : x' = { x with files := x.files ++ [(i, e)] }) {s' : Store}
    (hdoc : ∀ j, s'.documents j = if j = d.id then some (docOf d x) else none)
    (hres : ∀ j, s'.resources j = (s.resources.erase i) j) (hcnt : s'.counters = s.counters)
    (hrest : RestOf s s') : SeesProps k s0 d K N s' x := by
  subst hx
  have hnd := h.nodup
  simp only [PropState.ids, List.map_append, List.map_cons, List.map_nil] at hnd
  have hi : i ∉ x.files.map Prod.fst := by
    intro hi
    rw [List.nodup_append] at hnd
    exact hnd.2.2 i hi i (by simp) rfl
  refine ⟨by rw [hdoc, if_pos rfl], fun j hj => by rw [hdoc, if_neg hj], ?_, ?_, ?_, ?_, ?_, ?_⟩
  · intro j
    rw [hres, IdMap.erase_get, h.resources, lookup_snoc hi]
    by_cases hj : j = i
    · rw [if_pos hj, hj, lookup_none hi]; rfl
    · rw [if_neg hj, if_neg hj]
  · rw [List.nodup_append] at hnd; exact hnd.1
  · intro j hj; exact h.below j (by simp [PropState.ids] at hj ⊢; exact Or.inl hj)
  · intro p hp; exact h.names p (by simp [hp])
  · show K ≤ (s'.counters "resource").getD 1
    rw [hcnt]; exact h.bound
  · have r := h.rest
    exact ⟨hrest.rope.trans r.rope, hrest.roots.trans r.roots, hrest.frames.trans r.frames,
      hrest.blocks.trans r.blocks, hrest.lists.trans r.lists, hrest.tables.trans r.tables,
      hrest.tableCells.trans r.tableCells, hrest.formatRuns.trans r.formatRuns,
      hrest.blockImages.trans r.blockImages, hrest.blockOffsets.trans r.blockOffsets⟩

/-- Removing the last resource. -/
theorem SeesProps.remove {i : Nat} {e : FileEntry} (h : SeesProps k s0 d K N s x')
    (hx : x' = { x with files := x.files ++ [(i, e)] }) :
    ∃ s', ((s.removeResource i).bind fun s => s.setDocResources d.id x.ids) = some s' ∧
      SeesProps k s0 d K N s' x := by
  have hnd := h.nodup
  rw [hx] at hnd
  simp only [PropState.ids, List.map_append, List.map_cons, List.map_nil] at hnd
  have hi : i ∉ x.files.map Prod.fst := by
    intro hi
    rw [List.nodup_append] at hnd
    exact hnd.2.2 i hi i (by simp) rfl
  have hki : d.id ∈ s.documents.keys := (h.keys _).mpr rfl
  have hkeys : s.documents.keys = [d.id] := by
    have hmem := h.keys
    have hn := s.documents.nodup
    cases hk : s.documents.keys with
    | nil => rw [hk] at hki; simp at hki
    | cons a l =>
      rw [hk] at hn
      have ha : a = d.id := (hmem a).mp (by rw [hk]; simp)
      cases l with
      | nil => rw [ha]
      | cons b l =>
        have hb : b = d.id := (hmem b).mp (by rw [hk]; simp)
        simp [ha, hb] at hn
  have hdr : s.docResources d.id = x.ids ++ [i] := by
    rw [Store.docResources, h.document, hx]; simp [docOf, PropState.ids]
  have hfil : (x.ids ++ [i]).filter (fun b => decide (b ≠ i)) = x.ids := by
    rw [List.filter_append]
    simp only [ne_eq, decide_not, List.filter_cons, decide_true, Bool.not_true, List.filter_nil]
    rw [List.filter_eq_self.mpr]
    · simp
    · intro j hj
      have : j ≠ i := by intro e; exact hi (e ▸ hj)
      simp [this]
  have hres : s.resources i = some (resourceOf k i e) := by
    rw [h.resources, hx, lookup_snoc hi, if_pos rfl]; rfl
  have hd1 : (s.tableRemoveResource i).documents d.id = some (docOf d x) := by
    show (s.documents.mapValues _) _ = _
    rw [IdMap.mapValues_get, h.document]
    simp only [Option.map_some, docOf, hx, Option.some.injEq, Document.mk.injEq, true_and, and_true]
    simpa [PropState.ids] using hfil
  have hall : ∀ t : Store, (∀ j, t.resources j = (s.resources.erase i) j) →
      (x.ids.all fun j => (t.resources j).isSome) = true := by
    intro t ht
    rw [List.all_eq_true]
    intro j hj
    have hji : j ≠ i := by intro e; exact hi (e ▸ hj)
    obtain ⟨p, hp, hpj⟩ := List.mem_map.mp hj
    rw [ht, IdMap.erase_get, if_neg hji, h.resources, hx, lookup_snoc hi, if_neg hji, ← hpj,
      lookup_of_mem (List.nodup_append.mp hnd).1 hp]
    rfl
  let d1 : Document := docOf d x
  let s1 : Store := { s.tableRemoveResource i with documents := (s.tableRemoveResource i).documents.insert d.id { d1 with resources := x.ids } }
  let s2 : Store := { s1 with documents := s1.documents.insert d.id { d1 with resources := x.ids } }
  have hd2 : s1.documents d.id = some d1 := by
    show ((s.tableRemoveResource i).documents.insert _ _) _ = _
    rw [IdMap.insert_get, if_pos rfl]; rfl
  have e1 : s.removeResource i = some s1 := by
    simp only [Store.removeResource, hres, hkeys, List.filter_cons, List.filter_nil, hdr]
    rw [if_pos (by simp)]
    simp only [List.map_cons, List.map_nil, Store.rewriteDocResources, hdr]
    rw [hfil, Store.setDocResources, if_pos (hall _ (fun _ => rfl)), hd1]
    rfl
  have e2 : s1.setDocResources d.id x.ids = some s2 := by
    rw [Store.setDocResources, if_pos (hall _ (fun _ => rfl)), hd2]
  refine ⟨s2, by rw [e1, Option.bind_some, e2], h.dropped hx ?_ (fun _ => rfl) rfl
    ⟨rfl, rfl, rfl, rfl, rfl, rfl, rfl, rfl, rfl, rfl⟩⟩
  intro j
  show (s1.documents.insert _ _) _ = _
  rw [IdMap.insert_get]
  by_cases hj : j = d.id
  · rw [if_pos hj, if_pos hj]; rfl
  · rw [if_neg hj, if_neg hj]
    show ((s.tableRemoveResource i).documents.insert _ _) _ = _
    rw [IdMap.insert_get, if_neg hj]
    show (s.documents.mapValues _) _ = _
    rw [IdMap.mapValues_get, h.only j hj]; rfl

/-- Adding a resource. -/
theorem SeesProps.create (h : SeesProps k s0 d K N s x) (hK : s.nextResource = K) (e : FileEntry) :
    ∃ s', s.createResource { resourceType := e.type, name := e.name, mimeType := e.mime, dataBase64 := k.enc e.data }
        d.id (-1) = some (resourceOf k K e, s') ∧
      SeesProps k s0 d (K + 1) (fun i => if i = K then e.name else N i) s'
        { x with files := x.files ++ [(K, e)] } := by
  have hi : K ∉ x.files.map Prod.fst := by
    intro hh; exact absurd (h.below K hh) (by omega)
  let s1 : Store := (s.insertNewResource { resourceType := e.type, name := e.name, mimeType := e.mime, dataBase64 := k.enc e.data }).2
  have hr : ∀ j, s1.resources j = ((x.files ++ [(K, e)]).lookup j).map (resourceOf k j) := by
    intro j
    show (s.resources.insert _ _) j = _
    rw [IdMap.insert_get, lookup_snoc hi]
    have hk : (s.nextId "resource").fst = K := hK
    by_cases hj : j = K
    · rw [if_pos (by rw [hk]; exact hj), if_pos hj]
      simp only [Option.map_some, resourceOf, hk, hj]
    · rw [if_neg (by rw [hk]; exact hj), if_neg hj]
      exact h.resources j
  have hdr : s1.docResources d.id = x.ids := by
    show ((s.documents d.id).map Document.resources).getD [] = _
    rw [h.document]; rfl
  have hall : ((x.ids ++ [K]).all fun i => (s1.resources i).isSome) = true := by
    rw [List.all_eq_true]
    intro j hj
    rw [hr, lookup_snoc hi]
    simp only [List.mem_append, List.mem_singleton] at hj
    by_cases hjK : j = K
    · rw [if_pos hjK]; rfl
    · rw [if_neg hjK]
      rcases hj with hj | hj
      · obtain ⟨p, hp, hpj⟩ := List.mem_map.mp hj
        rw [← hpj, lookup_of_mem h.nodup hp]; rfl
      · exact absurd hj hjK
  have hid : (s.insertNewResource { resourceType := e.type, name := e.name, mimeType := e.mime, dataBase64 := k.enc e.data }).1 = resourceOf k K e := by
    simp only [Store.insertNewResource, Store.nextId, resourceOf]
    rw [show (s.counters "resource").getD 1 = K from hK]
  refine ⟨{ s1 with documents := s1.documents.insert d.id { docOf d x with resources := x.ids ++ [K] } }, ?_, ?_⟩
  · simp only [Store.createResource]
    rw [hid]
    show (s1.setDocResources d.id (Store.insertAtIndex (s1.docResources d.id) (-1) K)).map _ = _
    rw [hdr, Store.insertAtIndex, if_neg (by omega), Store.setDocResources, if_pos hall,
      show s1.documents d.id = some (docOf d x) from h.document]
    rfl
  · refine ⟨?_, ?_, hr, ?_, ?_, ?_, ?_, ⟨h.rest.rope, h.rest.roots, h.rest.frames, h.rest.blocks,
      h.rest.lists, h.rest.tables, h.rest.tableCells, h.rest.formatRuns, h.rest.blockImages,
      h.rest.blockOffsets⟩⟩
    · show (s1.documents.insert _ _) _ = _
      rw [IdMap.insert_get, if_pos rfl]
      simp [docOf, PropState.ids]
    · intro j hj
      show (s1.documents.insert _ _) _ = _
      rw [IdMap.insert_get, if_neg hj]; exact h.only j hj
    · show ((x.files ++ [(K, e)]).map Prod.fst).Nodup
      rw [List.map_append, List.nodup_append]
      refine ⟨h.nodup, by simp, ?_⟩
      intro a ha b hb hab
      simp at hb
      exact hi (by rw [← hb, ← hab]; exact ha)
    · intro j hj
      simp only [PropState.ids, List.map_append, List.mem_append, List.map_cons, List.map_nil,
        List.mem_singleton] at hj
      rcases hj with hj | hj
      · have := h.below j hj; omega
      · omega
    · intro p hp
      simp only [List.mem_append, List.mem_singleton] at hp
      rcases hp with hp | rfl
      · have hne : p.1 ≠ K := by
          have := h.below p.1 (List.mem_map.mpr ⟨p, hp, rfl⟩); omega
        rw [if_neg hne]; exact h.names p hp
      · rw [if_pos rfl]
    · have hk : (s.counters "resource").getD 1 = K := hK
      show K + 1 ≤ (s1.counters "resource").getD 1
      have : s1.counters "resource" = some ((s.counters "resource").getD 1 + 1) := by
        show (if "resource" = "resource" then some ((s.counters "resource").getD 1 + 1) else s.counters "resource") = _
        rw [if_pos rfl]
      rw [this, hk]
      exact Nat.le_refl _

/-! ### The contract -/

def PropDone (d : Document) : PropCmd → PropState → PropState → Prop
  | .doc c, x, x' => c = ⟨[docOf d x], []⟩ ∧ x'.files = x.files
  | .res c, x, x' => c.owner = d.id ∧ c.index = -1 ∧ c.previous = x.ids ∧
      ∃ e, x' = { x with files := x.files ++ [(c.created.id, e)] }

def PropUndone (k : Codec) (s0 : Store) (d : Document) (K : Nat) (N : Nat → String) :
    PropCmd → PropState → PropState → Prop
  | .doc c, x, x' => c = ⟨[], [docOf d x']⟩ ∧ x'.files = x.files
  | .res c, x, x' => PropDone d (.res c) x x' ∧ ∃ snap, c.snap = some snap ∧
      ∀ s : Store, K ≤ s.nextResource → SeesProps k s0 d K N (s.restoreUndo snap) x'

def propContract (k : Codec) (s0 : Store) (d : Document) (K : Nat) (N : Nat → String) :
    ViewContract propApi PropState PropState where
  Sees := SeesProps k s0 d K N
  view x := x
  Done := PropDone d
  Undone := PropUndone k s0 d K N
  mark _ := none
  undo_ok := by
    intro c x x' s hD hS
    cases c with
    | doc c =>
      obtain ⟨rfl, hf⟩ := hD
      refine ⟨.doc ⟨[], [docOf d x']⟩, s.updateDocument (docOf d x), ?_, hS.update hf.symm, ⟨rfl, hf⟩, rfl⟩
      simp only [propApi, DocCmd.undoIt]
      rw [show (docOf d x).id = d.id from rfl, hS.document]
    | res c =>
      obtain ⟨h1, h2, h3, e, h4⟩ := hD
      obtain ⟨s', e1, e2⟩ := hS.remove h4
      refine ⟨.res { c with snap := some s.snapshot }, s', ?_, e2, ⟨⟨h1, h2, h3, e, h4⟩, _, rfl, ?_⟩, rfl⟩
      · simp only [propApi, ResCmd.undoIt, h1, h3, e1]
      · intro s1 hs1; exact hS.restored s1 hs1
  redo_ok := by
    intro c x x' s hU hS
    cases c with
    | doc c =>
      obtain ⟨rfl, hf⟩ := hU
      refine ⟨.doc ⟨[docOf d x], []⟩, s.updateDocument (docOf d x'), x', ?_, hS.update hf, rfl, ⟨rfl, hf⟩, rfl⟩
      simp only [propApi, DocCmd.redoIt]
      rw [show (docOf d x').id = d.id from rfl, hS.document]
    | res c =>
      obtain ⟨⟨h1, h2, h3, e, h4⟩, snap, h5, h6⟩ := hU
      obtain ⟨s', e1, e2⟩ := (h6 s hS.bound).setSame
      have hids : Store.insertAtIndex c.previous c.index c.created.id = x'.ids := by
        rw [h2, Store.insertAtIndex, if_neg (by omega), h3, h4]
        simp [PropState.ids]
      refine ⟨.res c, s', x', ?_, e2, rfl, ⟨h1, h2, h3, e, h4⟩, rfl⟩
      simp only [propApi, ResCmd.redoIt, h5, h1, hids, e1]
  merge_ok := by intro a c x x' x'' _ _ _ h; simp [propApi] at h

theorem PropUndone.weaken (hK : K ≤ K') (hN : ∀ i, i < K → N' i = N i) (c : PropCmd) (x x' : PropState)
    (h : PropUndone k s0 d K N c x x') : PropUndone k s0 d K' N' c x x' := by
  cases c with
  | doc c => exact h
  | res c =>
    obtain ⟨h1, snap, h2, h3⟩ := h
    refine ⟨h1, snap, h2, fun s hs => (h3 s (by omega)).weaken hK hs hN⟩

end Verif

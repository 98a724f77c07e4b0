import Verif.Lemmas.Properties
import Verif.Lemmas.DocKeys
/-
C83: the title, direction, wrap mode and resources of a document.
-/
namespace Verif
variable {k : Codec} {s0 : Store} {d : Document} {K : Nat} {N : Nat → String} {x : PropState}

/-- A time line without the ids. -/
def Timeline.shown (t : Timeline PropState) : Timeline DocProps :=
  ⟨t.past.map PropState.props, t.cur.props, t.future.map PropState.props⟩

theorem Timeline.shown_undo (t : Timeline PropState) : t.undo.shown = t.shown.undo := by
  obtain ⟨p, c, f⟩ := t
  cases p <;> rfl

theorem Timeline.shown_redo (t : Timeline PropState) : t.redo.shown = t.shown.redo := by
  obtain ⟨p, c, f⟩ := t
  cases f <;> rfl

/-- A document along its history. -/
structure Kept (k : Codec) (s0 : Store) (d : Document) (h : Holder) (t : Timeline DocProps) : Prop where
  doc : h.documentId = d.id
  ex : ∃ K N x t0, (propContract k s0 d K N).Holds (fun _ => True) h.mgr (some h.sid) h.store x t0 ∧
    t0.shown = t ∧ ∀ n i, h.cache n = some i → i < K ∧ N i = n

theorem SeesProps.fits_cached (hk : ∀ b, k.dec (k.enc b) = some b) {h : Holder} {name : String}
    (hs : SeesProps k s0 d K N h.store x) (hc : ∀ n i, h.cache n = some i → i < K ∧ N i = n) :
    ∃ ans h', h.resource k name = some (ans, h') ∧ FitsFile (x.files.map Prod.snd) name ans ∧
      h'.store = h.store ∧ h'.mgr = h.mgr ∧ h'.sid = h.sid ∧ h'.documentId = h.documentId ∧
      (∀ n i, h'.cache n = some i → i < K ∧ N i = n) := by
  have hscan : ∀ g : Holder, g.store = h.store → g.mgr = h.mgr → g.sid = h.sid →
      g.documentId = h.documentId → (∀ n i, g.cache n = some i → i < K ∧ N i = n) →
      ∃ ans h', g.scan k name = some (ans, h') ∧ FitsFile (x.files.map Prod.snd) name ans ∧
      h'.store = h.store ∧ h'.mgr = h.mgr ∧ h'.sid = h.sid ∧ h'.documentId = h.documentId ∧
      (∀ n i, h'.cache n = some i → i < K ∧ N i = n) := by
    intro g g1 g2 g3 g4 g5
    unfold Holder.scan
    split
    · rename_i r hr
      have hr1 := List.find?_some hr
      have hr2 := List.mem_of_find?_eq_some hr
      obtain ⟨i, _, hi⟩ := List.mem_filterMap.mp hr2
      rw [g1, hs.resources] at hi
      obtain ⟨e, he1, he2⟩ := Option.map_eq_some_iff.mp hi
      have hmem := mem_of_lookup he1
      have hn : e.name = name := by
        have : r.name = name := by simpa using hr1
        rw [← this, ← he2]; rfl
      refine ⟨some e.data, { g with cache := fun n => if n = name then some i else g.cache n }, ?_,
        ⟨e, List.mem_map.mpr ⟨_, hmem, rfl⟩, hn, rfl⟩, g1, g2, g3, g4, ?_⟩
      · rw [← he2]
        show (k.dec (k.enc e.data)).map _ = _
        rw [hk, Option.map_some]
        rfl
      · intro n j hj
        change (if n = name then some i else g.cache n) = some j at hj
        split at hj
        · rename_i hne
          cases hj
          rw [hne]
          exact ⟨hs.below i (List.mem_map.mpr ⟨_, hmem, rfl⟩), (hs.names _ hmem).trans hn⟩
        · exact g5 n j hj
    · rename_i hr
      refine ⟨none, g, rfl, ?_, g1, g2, g3, g4, g5⟩
      intro e he hne
      obtain ⟨p, hp, rfl⟩ := List.mem_map.mp he
      have hr' := List.find?_eq_none.mp hr (resourceOf k p.1 p.2) (List.mem_filterMap.mpr ⟨p.1, ?_, ?_⟩)
      · exact hr' (by simpa [resourceOf] using hne)
      · rw [g1, h.store.resources.mem, hs.resources, lookup_of_mem hs.nodup hp]; rfl
      · rw [g1, hs.resources, lookup_of_mem hs.nodup hp]; rfl
  unfold Holder.resource
  split
  · rename_i i hi
    split
    · rename_i r hr
      rw [hs.resources] at hr
      obtain ⟨e, he1, he2⟩ := Option.map_eq_some_iff.mp hr
      have hmem := mem_of_lookup he1
      refine ⟨some e.data, h, ?_, ⟨e, List.mem_map.mpr ⟨_, hmem, rfl⟩, ?_, rfl⟩, rfl, rfl, rfl, rfl, hc⟩
      · rw [← he2]
        show (k.dec (k.enc e.data)).map _ = _
        rw [hk, Option.map_some]
      · exact (hs.names _ hmem).symm.trans (hc name i hi).2
    · refine hscan _ rfl rfl rfl rfl ?_
      intro n j hj
      simp only at hj
      split at hj
      · exact absurd hj (by simp)
      · exact hc n j hj
  · exact hscan h rfl rfl rfl rfl hc

theorem Kept.step (hk : ∀ b, k.dec (k.enc b) = some b) {h : Holder} {t : Timeline DocProps}
    (hK : Kept k s0 d h t) (op : PropOp) :
    ∃ h', h.step k op = some h' ∧ Kept k s0 d h' (t.afterProp op) := by
  obtain ⟨hdoc, K, N, x, t0, hH, rfl, hc⟩ := hK
  have hS : SeesProps k s0 d K N h.store x := hH.sees
  have hcur : x = t0.cur := hH.cur
  have hupd : ∀ x' : PropState, x'.files = x.files →
      ∃ h', h.update (docOf d x') = some h' ∧ Kept k s0 d h' (t0.shown.edit x'.props) := by
    intro x' hf
    obtain ⟨m', t', e1, e2, e3⟩ := hH.add (c := PropCmd.doc ⟨[docOf d x], []⟩) (x' := x')
      (s' := h.store.updateDocument (docOf d x'))
      (show PropDone d (.doc ⟨[docOf d x], []⟩) x x' from ⟨rfl, hf⟩) (hS.update hf) (fun _ _ => trivial)
      (fun a _ hm => by simp [propApi] at hm)
    refine ⟨{ h with store := h.store.updateDocument (docOf d x'), mgr := m' }, ?_, hdoc, K, N, x', t', e2, ?_, hc⟩
    · unfold Holder.update
      rw [show (docOf d x').id = d.id from rfl, hS.document, Option.bind_some, e1]
    · rcases e3 with rfl | ⟨_, _, a, ha⟩
      · rfl
      · simp [propApi] at ha
  have hdx : h.store.documents h.documentId = some (docOf d x) := by rw [hdoc]; exact hS.document
  cases op with
  | setTitle v =>
    obtain ⟨h', e1, e2⟩ := hupd { x with title := v } rfl
    refine ⟨h', ?_, ?_⟩
    · simp only [Holder.step, Holder.setTitle, hdx, Option.bind_some]; exact e1
    · rw [hcur] at e2; exact e2
  | setTextDirection v =>
    obtain ⟨h', e1, e2⟩ := hupd { x with direction := v } rfl
    refine ⟨h', ?_, ?_⟩
    · simp only [Holder.step, Holder.setTextDirection, hdx, Option.bind_some]; exact e1
    · rw [hcur] at e2; exact e2
  | setDefaultWrapMode v =>
    obtain ⟨h', e1, e2⟩ := hupd { x with wrap := v } rfl
    refine ⟨h', ?_, ?_⟩
    · simp only [Holder.step, Holder.setDefaultWrapMode, hdx, Option.bind_some]; exact e1
    · rw [hcur] at e2; exact e2
  | addResource ty name mime data =>
    have hb := hS.bound
    generalize hM : h.store.nextResource = M at hb
    have hS' : SeesProps k s0 d M N h.store x := hS.weaken hb (by omega) (fun _ _ => rfl)
    obtain ⟨s', e1, e2⟩ := hS'.create hM ⟨ty, name, mime, data⟩
    let x' : PropState := { x with files := x.files ++ [(M, ⟨ty, name, mime, data⟩)] }
    let N' : Nat → String := fun i => if i = M then name else N i
    have hN : ∀ i, i < M → N' i = N i := fun i hi => if_neg (by omega)
    -- the history so far, for a store that counts the new id already
    let sc : Store := { h.store with counters := s'.counters }
    have hsc : SeesProps k s0 d (M + 1) N' sc x :=
      ⟨hS'.document, hS'.only, hS'.resources, hS'.nodup, fun i hi => by have := hS'.below i hi; omega,
        fun p hp => by
          have := hS'.below p.1 (List.mem_map.mpr ⟨p, hp, rfl⟩)
          rw [hN _ this]; exact hS'.names p hp, e2.bound,
        ⟨hS.rest.rope, hS.rest.roots, hS.rest.frames, hS.rest.blocks, hS.rest.lists, hS.rest.tables,
          hS.rest.tableCells, hS.rest.formatRuns, hS.rest.blockImages, hS.rest.blockOffsets⟩⟩
    have hT : (propContract k s0 d (M + 1) N').Holds (fun _ => True) h.mgr (some h.sid) sc x t0 :=
      ViewContract.Holds.transfer (k1 := propContract k s0 d K N) (k2 := propContract k s0 d (M + 1) N')
        rfl rfl (fun _ _ _ h => h)
        (fun c y z => PropUndone.weaken (k := k) (s0 := s0) (d := d) (K := K) (K' := M + 1) (N := N)
          (N' := N') (by omega) (fun i hi => hN i (by omega)) c y z) hH hsc
    obtain ⟨m', t', g1, g2, g3⟩ := hT.add
      (c := PropCmd.res ⟨resourceOf k M ⟨ty, name, mime, data⟩, d.id, -1, x.ids, none⟩)
      (x' := x') (s' := s')
      (show PropDone d (.res ⟨resourceOf k M ⟨ty, name, mime, data⟩, d.id, -1, x.ids, none⟩) x x' from
        ⟨rfl, rfl, rfl, _, rfl⟩) e2 (fun _ _ => trivial) (fun a _ hm => by simp [propApi] at hm)
    have ht' : t' = t0.edit x' := by
      rcases g3 with rfl | ⟨_, _, a, ha⟩
      · rfl
      · simp [propApi] at ha
    have hdr : h.store.docResources d.id = x.ids := by
      rw [Store.docResources, hS.document]; rfl
    refine ⟨{ h with store := s', mgr := m', cache := fun n => if n = name then some M else h.cache n }, ?_, ?_⟩
    · simp only [Holder.step, Holder.addResource, hdoc]
      rw [e1, Option.bind_some, hdr]
      simp only [g1]
      rfl
    · refine ⟨hdoc, M + 1, N', x', t', g2, ?_, ?_⟩
      · rw [ht']
        simp only [Timeline.shown, Timeline.edit, Timeline.afterProp, DocProps.after, List.map_cons,
          ← hcur, x']
        simp [PropState.props]
      · intro n i hi
        simp only at hi
        split at hi
        · rename_i hn
          cases hi
          exact ⟨by omega, by rw [hn]; exact if_pos rfl⟩
        · obtain ⟨q1, q2⟩ := hc n i hi
          exact ⟨by omega, by rw [hN i (by omega)]; exact q2⟩
  | resource name =>
    obtain ⟨ans, h', e1, _, e3, e4, e5, e6, e7⟩ := hS.fits_cached hk (name := name) hc
    refine ⟨h', by simp [Holder.step, e1], ?_⟩
    refine ⟨by rw [e6]; exact hdoc, K, N, x, t0, ?_, ?_, e7⟩
    · rw [e3, e4, e5]; exact hH
    · simp [Timeline.afterProp, DocProps.after]
  | undo =>
    obtain ⟨m', s', x', e1, e2⟩ := hH.undo
    refine ⟨{ h with mgr := m', store := s' }, by simp only [Holder.step, Holder.undo, e1], hdoc, K, N, x',
      t0.undo, e2, ?_, hc⟩
    rw [Timeline.shown_undo]; rfl
  | redo =>
    obtain ⟨m', s', x', e1, e2⟩ := hH.redo
    refine ⟨{ h with mgr := m', store := s' }, by simp only [Holder.step, Holder.redo, e1], hdoc, K, N, x',
      t0.redo, e2, ?_, hc⟩
    rw [Timeline.shown_redo]; rfl

theorem Kept.run (hk : ∀ b, k.dec (k.enc b) = some b) (ops : List PropOp) {h : Holder}
    {t : Timeline DocProps} (hK : Kept k s0 d h t) :
    ∃ h', h.run k ops = some h' ∧ Kept k s0 d h' (ops.foldl Timeline.afterProp t) := by
  induction ops generalizing h t with
  | nil => exact ⟨h, rfl, hK⟩
  | cons op ops ih =>
    obtain ⟨h1, e1, e2⟩ := hK.step hk op
    obtain ⟨h', e3, e4⟩ := ih e2
    exact ⟨h', by simp [Holder.run, e1, e3], e4⟩

/-- A document before anything was added to it or done with it. -/
structure NothingDone (h : Holder) (d : Document) : Prop where
  document : h.store.documents h.documentId = some d
  id : d.id = h.documentId
  only : ∀ i, i ≠ d.id → h.store.documents i = none
  listed : d.resources = []
  resources : ∀ i, h.store.resources i = none
  stack : h.mgr.stacks h.sid = some {}
  idle : h.mgr.comp = none
  level : h.mgr.level = 0
  compStack : h.mgr.compStack = none ∨ h.mgr.compStack = some h.sid
  cache : ∀ n, h.cache n = none

/-- The time line of a document nothing was done with. -/
def startOf (d : Document) : Timeline DocProps := ⟨[], ⟨d.title, d.textDirection, d.defaultWrapMode, []⟩, []⟩

theorem NothingDone.kept {h : Holder} (hU : NothingDone h d) : Kept k h.store d h (startOf d) := by
  refine ⟨hU.id.symm, 0, fun _ => "", ⟨d.title, d.textDirection, d.defaultWrapMode, []⟩,
    ⟨[], ⟨d.title, d.textDirection, d.defaultWrapMode, []⟩, []⟩,
    ⟨⟨{}, [], hU.stack, .nil, .nil, rfl, by simp, by simp⟩, hU.idle, hU.level, hU.compStack, rfl, ?_⟩, rfl, ?_⟩
  · refine ⟨?_, hU.only, ?_, by simp [PropState.ids], by simp [PropState.ids], by simp, Nat.zero_le _,
      ⟨rfl, rfl, rfl, rfl, rfl, rfl, rfl, rfl, rfl, rfl⟩⟩
    · rw [hU.id, hU.document]
      simp [docOf, PropState.ids, ← hU.listed]
    · intro i; rw [hU.resources]; rfl
  · intro n i hi; rw [hU.cache] at hi; exact absurd hi (by simp)

/-- Any sequence of setting the title, direction and wrap mode, adding and reading resources, undoing
and redoing, on a document as made or loaded: no call fails, the title, direction and wrap mode read
back are those of the time line, undo and redo are offered when there is something to undo and redo,
and nothing else of the document is touched. -/
theorem C83_properties (hk : ∀ b, k.dec (k.enc b) = some b) {h : Holder} (hU : NothingDone h d)
    (ops : List PropOp) :
    ∃ h', h.run k ops = some h' ∧
      h'.title = (ops.foldl Timeline.afterProp (startOf d)).cur.title ∧
      h'.textDirection = (ops.foldl Timeline.afterProp (startOf d)).cur.direction ∧
      h'.defaultWrapMode = (ops.foldl Timeline.afterProp (startOf d)).cur.wrap ∧
      h'.mgr.canUndo (some h'.sid) = !(ops.foldl Timeline.afterProp (startOf d)).past.isEmpty ∧
      h'.mgr.canRedo (some h'.sid) = !(ops.foldl Timeline.afterProp (startOf d)).future.isEmpty ∧
      SameButProps h.documentId h.store h'.store := by
  obtain ⟨h', e1, e2⟩ := (hU.kept (k := k)).run hk ops
  refine ⟨h', e1, ?_⟩
  obtain ⟨hdoc, K, N, x, t0, hH, ht, _⟩ := e2
  rw [← ht]
  have hS : SeesProps k h.store d K N h'.store x := hH.sees
  have hcur : x = t0.cur := hH.cur
  have hdx : h'.store.documents h'.documentId = some (docOf d x) := by rw [hdoc]; exact hS.document
  obtain ⟨f1, f2⟩ := hH.flags
  have r := hS.rest
  refine ⟨?_, ?_, ?_, ?_, ?_, ⟨r.rope, r.roots, r.frames, r.blocks, r.lists, r.tables, r.tableCells,
    r.formatRuns, r.blockImages, r.blockOffsets, ?_, ?_⟩⟩
  · simp [Holder.title, hdx, Timeline.shown, PropState.props, docOf, hcur]
  · simp [Holder.textDirection, hdx, Timeline.shown, PropState.props, docOf, hcur]
  · simp [Holder.defaultWrapMode, hdx, Timeline.shown, PropState.props, docOf, hcur]
  · rw [f1]; simp [Timeline.shown]
  · rw [f2]; simp [Timeline.shown]
  · intro i hi
    rw [← hU.id] at hi
    rw [hS.only i hi, hU.only i hi]
  · intro d1 hd1
    rw [hU.document] at hd1
    cases hd1
    exact ⟨docOf d x, by rw [← hU.id, hS.document]; rfl⟩

/-- After any such sequence `resource(name)` gives the data of a resource added under that name and
not undone, and nothing when there is none.  Of several under one name it need not be the last
(`C83_last_added_fails`). -/
theorem C83_resource_partial (hk : ∀ b, k.dec (k.enc b) = some b) {h : Holder} (hU : NothingDone h d)
    (ops : List PropOp) (name : String) :
    ∃ h' ans h'', h.run k ops = some h' ∧ h'.resource k name = some (ans, h'') ∧
      FitsFile (ops.foldl Timeline.afterProp (startOf d)).cur.files name ans := by
  obtain ⟨h', e1, e2⟩ := (hU.kept (k := k)).run hk ops
  obtain ⟨hdoc, K, N, x, t0, hH, ht, hc⟩ := e2
  have hS : SeesProps k h.store d K N h'.store x := hH.sees
  have hcur : x = t0.cur := hH.cur
  obtain ⟨ans, h'', g1, g2, _⟩ := hS.fits_cached hk (name := name) hc
  refine ⟨h', ans, h'', e1, g1, ?_⟩
  rw [← ht]
  simp only [Timeline.shown, PropState.props, ← hcur]
  exact g2

/-- When one resource only has the name, its data is given. -/
theorem C83_resource_unique (hk : ∀ b, k.dec (k.enc b) = some b) {h : Holder} (hU : NothingDone h d)
    (ops : List PropOp) (e : FileEntry)
    (he : (ops.foldl Timeline.afterProp (startOf d)).cur.files.filter (fun g => g.name == e.name) = [e]) :
    ∃ h' h'', h.run k ops = some h' ∧ h'.resource k e.name = some (some e.data, h'') := by
  obtain ⟨h', ans, h'', e1, e2, e3⟩ := C83_resource_partial hk hU ops e.name
  refine ⟨h', h'', e1, ?_⟩
  have hmem : ∀ g, g ∈ (ops.foldl Timeline.afterProp (startOf d)).cur.files → g.name = e.name → g = e := by
    intro g hg hn
    have : g ∈ (ops.foldl Timeline.afterProp (startOf d)).cur.files.filter (fun g => g.name == e.name) :=
      List.mem_filter.mpr ⟨hg, by simpa using hn⟩
    rw [he] at this
    simpa using this
  have hin : e ∈ (ops.foldl Timeline.afterProp (startOf d)).cur.files := by
    have : e ∈ (ops.foldl Timeline.afterProp (startOf d)).cur.files.filter (fun g => g.name == e.name) := by
      rw [he]; simp
    exact (List.mem_filter.mp this).1
  cases ans with
  | none => exact absurd rfl (e3 e hin)
  | some b =>
    obtain ⟨g, g1, g2, g3⟩ := e3
    rw [e2, ← g3, hmem g g1 g2]

/-- Right after a resource was added, its data is what its name gives, whatever else has the name. -/
theorem C83_just_added (hk : ∀ b, k.dec (k.enc b) = some b) (h h' : Holder) (ty : ResourceType)
    (name mime : String) (data : List UInt8) (ha : h.addResource k ty name mime data = some h') :
    h'.resource k name = some (some data, h') := by
  unfold Holder.addResource at ha
  obtain ⟨⟨r, s⟩, g1, g2⟩ := Option.bind_eq_some_iff.mp ha
  simp only at g2
  split at g2
  · rename_i m hm
    cases g2
    have hs : s.resources r.id = some r ∧ r.dataBase64 = k.enc data := by
      simp only [Store.createResource] at g1
      obtain ⟨s1, q1, q2⟩ := Option.map_eq_some_iff.mp g1
      obtain ⟨q3, q4⟩ := Prod.mk.inj q2
      subst q3
      subst q4
      have : s1.resources = (h.store.insertNewResource { resourceType := ty, name := name, mimeType := mime, dataBase64 := k.enc data }).2.resources := by
        unfold Store.setDocResources at q1
        split at q1
        · split at q1 <;> (cases q1; rfl)
        · exact absurd q1 (by simp)
      refine ⟨?_, rfl⟩
      rw [this]
      show (h.store.resources.insert _ _) _ = _
      rw [IdMap.insert_get]
      exact if_pos rfl
    simp only [Holder.resource, if_pos, hs.1, hs.2, hk, Option.map_some]
  · exact absurd g2 (by simp)

/-- A codec for the examples: every byte a character. -/
def byteCodec : Codec where
  enc d := String.ofList (d.map fun b => Char.ofNat b.toNat)
  dec s := some (s.toList.map fun c => UInt8.ofNat c.toNat)

theorem byteCodec_ok (b : List UInt8) : byteCodec.dec (byteCodec.enc b) = some b := by
  simp only [byteCodec, String.toList_ofList, List.map_map, Option.some.injEq]
  have h1 : ∀ n : Fin 256, (Char.ofNat n.val).toNat = n.val := by decide +kernel
  have : ((fun c => UInt8.ofNat c.toNat) ∘ fun b : UInt8 => Char.ofNat b.toNat) = id := by
    funext b
    have hb : b.toNat < 256 := b.toNat_lt
    have := h1 ⟨b.toNat, hb⟩
    simp only at this
    simp [Function.comp, this]
  rw [this, List.map_id]

/-- The hypotheses hold for a new document. -/
example : ∃ h d, Holder.new = some h ∧ NothingDone h d := by
  obtain ⟨h, hh⟩ : ∃ h, Holder.new = some h := ⟨_, rfl⟩
  have h' := hh
  simp only [Holder.new] at h'
  obtain ⟨s, h1, h2⟩ := Option.bind_eq_some_iff.mp h'
  obtain ⟨did, h3, h4⟩ := Option.map_eq_some_iff.mp h2
  subst h4
  obtain ⟨d, hd⟩ : ∃ d, s.documents did = some d := by cases h1; cases h3; exact ⟨_, rfl⟩
  refine ⟨_, d, hh, hd, ?_, ?_, ?_, ?_, rfl, rfl, rfl, Or.inl rfl, fun _ => rfl⟩
  · exact ((Store.newStore_docsIn h1) did d hd).2.trans ((Store.newStore_docsIn h1) did d hd).1.symm
  · intro i hi
    have hin := Store.newStore_docsIn h1
    cases hsi : s.documents i with
    | none => rfl
    | some d' => exact absurd ((hin i d' hsi).1.trans (hin did d hd).2.symm) hi
  · cases h1; cases h3; cases hd; rfl
  · intro i; cases h1; rfl

/-- Two resources under one name: when the second is undone and redone, `resource` gives the first if
it was asked in between, and the second if not. -/
theorem C83_last_added_fails :
    (Holder.new.bind fun h => (h.run byteCodec [.addResource .image "a" "" [1], .addResource .image "a" "" [2],
      .undo, .redo]).bind fun h => (h.resource byteCodec "a").map Prod.fst) = some (some [2]) ∧
    (Holder.new.bind fun h => (h.run byteCodec [.addResource .image "a" "" [1], .addResource .image "a" "" [2],
      .undo, .resource "a", .redo]).bind fun h => (h.resource byteCodec "a").map Prod.fst) = some (some [1]) := by
  decide +kernel

/-! ## C84 -/

/-- No text is read while something is being loaded; `n` loads are under way at the beginning. -/
def Patient : Nat → List ReadOp → Prop
  | _, [] => True
  | n, .read :: ops => n = 0 ∧ Patient n ops
  | n, .start _ _ :: ops => Patient (n + 1) ops
  | n, .finish :: ops => Patient (n - 1) ops
  | n, _ :: ops => Patient n ops

/-- The text kept is the text of the document, and none is kept while something is being loaded. -/
def Reader.Fresh (r : Reader) : Prop :=
  r.text = none ∨ (r.loading = [] ∧ r.session.store.exportPlainText = r.text)

theorem Reader.Fresh.run {r r' : Reader} (ops : List ReadOp) (hr : r.Fresh) (hp : Patient r.loading.length ops)
    (h : r.run ops = some r') : r'.Fresh := by
  induction ops generalizing r with
  | nil => cases h; exact hr
  | cons op ops ih =>
    obtain ⟨r1, h1, h2⟩ := Option.bind_eq_some_iff.mp h
    cases op with
    | act now op =>
      obtain ⟨e, _, g⟩ := Option.map_eq_some_iff.mp h1
      subst g
      refine ih ?_ ?_ h2
      · exact .inl rfl
      · exact hp
    | load t =>
      obtain ⟨e, _, g⟩ := Option.map_eq_some_iff.mp h1
      subst g
      refine ih ?_ ?_ h2
      · exact .inl rfl
      · exact hp
    | clear =>
      obtain ⟨e, _, g⟩ := Option.map_eq_some_iff.mp h1
      subst g
      refine ih ?_ ?_ h2
      · exact .inl rfl
      · exact hp
    | setModified b =>
      cases h1
      refine ih ?_ ?_ h2
      · exact hr
      · exact hp
    | start html es =>
      cases h1
      refine ih ?_ ?_ h2
      · exact .inl rfl
      · simpa [Patient] using hp
    | finish =>
      simp only [Reader.step] at h1
      split at h1
      · cases h1
        rename_i hl
        rw [hl] at hp
        refine ih ?_ ?_ h2
        · exact hr
        · rw [hl]; exact hp
      · rename_i html es rest hl
        obtain ⟨e, _, g⟩ := Option.map_eq_some_iff.mp h1
        subst g
        rcases hr with hr | hr
        · refine ih ?_ ?_ h2
          · exact .inl hr
          · rw [hl] at hp; simpa [Patient] using hp
        · rw [hr.1] at hl; exact absurd hl (by simp)
    | read =>
      have hl : r.loading = [] := List.eq_nil_of_length_eq_zero hp.1
      obtain ⟨q, q1, q2⟩ := Option.map_eq_some_iff.mp h1
      subst q2
      unfold Reader.plainText at q1
      split at q1
      · cases q1
        refine ih ?_ ?_ h2
        · exact hr
        · exact hp.2
      · obtain ⟨t, q3, q4⟩ := Option.map_eq_some_iff.mp q1
        subst q4
        refine ih ?_ ?_ h2
        · exact .inr ⟨hl, q3⟩
        · exact hp.2

/-- Whatever was loaded, edited, undone, redone and read before: `to_plain_text` gives the text of the
document as it is now, provided nothing was read during an import and none is under way.  During one
it can be stale afterwards (`C84_read_during_import_fails`). -/
theorem C84_text_partial {r r' : Reader} (hl : r.loading = []) (ht : r.text = none) (ops : List ReadOp)
    (hp : Patient 0 ops) (h : r.run ops = some r') :
    r'.plainText.map Prod.fst = r'.session.store.exportPlainText := by
  have := Reader.Fresh.run (r := r) ops (.inl ht) (by rw [hl]; exact hp) h
  unfold Reader.plainText
  rcases this with g | ⟨_, g⟩
  · rw [g]
    cases r'.session.store.exportPlainText <;> rfl
  · cases e : r'.text with
    | none =>
      cases r'.session.store.exportPlainText <;> rfl
    | some t => rw [g, e]; rfl

/-- Reading twice in a row gives the same text. -/
theorem C84_read_twice {r r' : Reader} {t : List Char} (h : r.plainText = some (t, r')) :
    r'.plainText = some (t, r') := by
  unfold Reader.plainText at h
  split at h
  · rename_i e
    cases h
    simp [Reader.plainText, e]
  · obtain ⟨x, _, g⟩ := Option.map_eq_some_iff.mp h
    cases g
    simp [Reader.plainText]

/-- A text read while an import was under way is still given after it is done. -/
theorem C84_read_during_import_fails :
    ((Session.new.bind fun e => e.setPlainText "old".toList).bind fun e =>
      (Reader.run ⟨e, none, false, []⟩ [.start false [.block { spans := [{ text := "new".toList }] }], .read, .finish]).bind fun r =>
        r.plainText.map fun q => (q.1, r.session.store.exportPlainText)) =
      some ("old".toList, some "new".toList) := by
  decide +kernel

/-- The hypotheses of `C84_text_partial` hold for a session in which an import is read after it is done. -/
example : ∃ (r r' : Reader) (ops : List ReadOp), r.loading = [] ∧ r.text = none ∧ Patient 0 ops ∧ ops.length = 5 ∧
    r.run ops = some r' ∧ r'.session.store.exportPlainText = some "newer".toList := by
  let ops : List ReadOp := [.read, .start false [.block { spans := [{ text := "new".toList }] }], .finish, .read, .act 0 (.type 3 3 "er".toList)]
  obtain ⟨e, he⟩ : ∃ e, Session.new = some e := ⟨_, rfl⟩
  have hx : (Session.new.bind fun e => (Reader.run ⟨e, none, false, []⟩ ops).bind fun r =>
      r.session.store.exportPlainText) = some "newer".toList := by decide +kernel
  rw [he, Option.bind_some] at hx
  obtain ⟨r', h1, h2⟩ := Option.bind_eq_some_iff.mp hx
  exact ⟨⟨e, none, false, []⟩, r', ops, rfl, rfl, by simp [ops, Patient], rfl, h1, h2⟩

theorem Reader.run_append (r : Reader) (a b : List ReadOp) : r.run (a ++ b) = (r.run a).bind fun r => r.run b := by
  induction a generalizing r with
  | nil => rfl
  | cons op a ih =>
    simp only [List.cons_append, Reader.run]
    cases r.step op with
    | none => rfl
    | some r1 => exact ih r1

theorem Reader.step_flag {r r' : Reader} (op : ReadOp) (h : r.step op = some r') :
    r'.isModified = match op with
      | .act _ o => r.isModified || o.byCursor
      | .setModified b => b
      | _ => r.isModified := by
  cases op with
  | act now op => obtain ⟨e, _, g⟩ := Option.map_eq_some_iff.mp h; subst g; rfl
  | load t => obtain ⟨e, _, g⟩ := Option.map_eq_some_iff.mp h; subst g; rfl
  | clear => obtain ⟨e, _, g⟩ := Option.map_eq_some_iff.mp h; subst g; rfl
  | setModified b => cases h; rfl
  | start html es => cases h; rfl
  | finish =>
    simp only [Reader.step] at h
    split at h
    · cases h; rfl
    · obtain ⟨e, _, g⟩ := Option.map_eq_some_iff.mp h; subst g; rfl
  | read =>
    obtain ⟨q, q1, q2⟩ := Option.map_eq_some_iff.mp h
    subst q2
    unfold Reader.plainText at q1
    split at q1
    · cases q1; rfl
    · obtain ⟨t, q3, q4⟩ := Option.map_eq_some_iff.mp q1
      subst q4; rfl

/-- The document counts as modified from the first edit after `set_modified(false)` on, until the next
`set_modified`: undoing the edits or loading another text does not change that. -/
theorem C84_modified {r r' : Reader} (a ops : List ReadOp) (now : Nat) (op : SessionOp) (hop : op.byCursor = true)
    (hb : ∀ x, ReadOp.setModified x ∉ ops) (h : r.run (a ++ .act now op :: ops) = some r') :
    r'.isModified = true := by
  rw [Reader.run_append] at h
  obtain ⟨r1, _, h1⟩ := Option.bind_eq_some_iff.mp h
  obtain ⟨r2, h2, h3⟩ := Option.bind_eq_some_iff.mp h1
  have h4 : r2.isModified = true := by rw [Reader.step_flag _ h2]; simp [hop]
  clear h h1 h2
  induction ops generalizing r2 with
  | nil => cases h3; exact h4
  | cons o ops ih =>
    obtain ⟨r3, g1, g2⟩ := Option.bind_eq_some_iff.mp h3
    refine ih (fun x hx => hb x (List.mem_cons_of_mem _ hx)) _ g2 ?_
    rw [Reader.step_flag _ g1]
    cases o with
    | setModified x => exact absurd (List.mem_cons_self) (hb x)
    | act => simp [h4]
    | _ => exact h4

/-- Without an edit by a cursor the flag is what `set_modified` made it. -/
theorem C84_unmodified {r r' : Reader} (a ops : List ReadOp) (b : Bool)
    (hb : ∀ o ∈ ops, (∀ x, o ≠ .setModified x) ∧ ∀ now op, o = .act now op → op.byCursor = false)
    (h : r.run (a ++ .setModified b :: ops) = some r') : r'.isModified = b := by
  rw [Reader.run_append] at h
  obtain ⟨r1, _, h1⟩ := Option.bind_eq_some_iff.mp h
  obtain ⟨r2, h2, h3⟩ := Option.bind_eq_some_iff.mp h1
  have h4 : r2.isModified = b := by rw [Reader.step_flag _ h2]
  clear h h1 h2
  induction ops generalizing r2 with
  | nil => cases h3; exact h4
  | cons o ops ih =>
    obtain ⟨r3, g1, g2⟩ := Option.bind_eq_some_iff.mp h3
    refine ih (fun o ho => hb o (List.mem_cons_of_mem _ ho)) _ g2 ?_
    rw [Reader.step_flag _ g1]
    obtain ⟨c1, c2⟩ := hb o List.mem_cons_self
    cases o with
    | setModified x => exact absurd rfl (c1 x)
    | act now op => simp [h4, c2 now op rfl]
    | _ => exact h4

example : ∃ (r r' : Reader), r.run ([.setModified false] ++ .act 0 (.type 0 0 ['a']) :: [.act 1 .undo, .read]) = some r' := by
  obtain ⟨e, he⟩ : ∃ e, Session.new = some e := ⟨_, rfl⟩
  have hx : (Session.new.bind fun e => (Reader.run ⟨e, none, false, []⟩
      ([.setModified false] ++ .act 0 (.type 0 0 ['a']) :: [.act 1 .undo, .read])).bind fun r =>
      r.session.store.exportPlainText) = some [] := by decide +kernel
  rw [he, Option.bind_some] at hx
  obtain ⟨r', h1, _⟩ := Option.bind_eq_some_iff.mp hx
  exact ⟨_, r', h1⟩

end Verif

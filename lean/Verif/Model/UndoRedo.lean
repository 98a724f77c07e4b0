/-
`UndoRedoManager`, common/src/undo_redo.rs.  Commands are abstract objects `C` acting on an
abstract document `S`; events sent to the hub are not modelled.
-/
namespace Verif

/-- The trait `UndoRedoCommand`, undo_redo.rs L16-L74.  A call may change the command object itself;
the Boolean is `true` for `Ok` (for `merge`: the returned Boolean). -/
structure CmdApi (C S : Type) where
  undo : C → S → Bool × C × S
  redo : C → S → Bool × C × S
  canMerge : C → C → Bool
  merge : C → C → Bool × C

/-- An entry of a history list: a plain command, or a `CompositeCommand` (L91-L147). -/
inductive Entry (C : Type) where
  | single (c : C)
  | group (cs : List C)
deriving DecidableEq, Repr

/-- A loop calling each command in turn and stopping at the first error (L127-L129, L135-L137). -/
def runAll {C S : Type} (f : C → S → Bool × C × S) : List C → S → Bool × List C × S
  | [], s => (true, [], s)
  | c :: cs, s =>
    match f c s with
    | (true, c', s') =>
      match runAll f cs s' with
      | (ok, cs', s'') => (ok, c' :: cs', s'')
    | (false, c', s') => (false, c' :: cs, s')

variable {C S : Type}

/-- `undo` of an entry; for a composite L124-L131 (reverse order). -/
def Entry.undo (api : CmdApi C S) : Entry C → S → Bool × Entry C × S
  | .single c, s => match api.undo c s with | (ok, c', s') => (ok, .single c', s')
  | .group cs, s =>
    match runAll api.undo cs.reverse s with
    | (ok, cs', s') => (ok, .group cs'.reverse, s')

/-- `redo` of an entry; for a composite L133-L139. -/
def Entry.redo (api : CmdApi C S) : Entry C → S → Bool × Entry C × S
  | .single c, s => match api.redo c s with | (ok, c', s') => (ok, .single c', s')
  | .group cs, s => match runAll api.redo cs s with | (ok, cs', s') => (ok, .group cs', s')

/-- `StackData`, L175-L179; the head of the list is the end of the `Vec`. -/
structure Stack (C : Type) where
  undo : List (Entry C) := []
  redo : List (Entry C) := []

/-- `UndoRedoManager`, L201-L208.  `comp` is `in_progress_composite` (its stack id, its commands in
order of addition). -/
structure Mgr (C : Type) where
  stacks : Nat → Option (Stack C)
  next : Nat
  comp : Option (Nat × List C)
  level : Nat
  compStack : Option Nat

/-- `UndoRedoManager::new`, L218-L229. -/
def Mgr.new : Mgr C :=
  { stacks := fun i => if i = 0 then some {} else none, next := 1, comp := none, level := 0,
    compStack := none }

/-- Write one stack of the `HashMap`. -/
def Mgr.setStack (m : Mgr C) (i : Nat) (s : Option (Stack C)) : Mgr C :=
  { m with stacks := fun j => if j = i then s else m.stacks j }

/-- `undo`, L241-L264.  The Boolean is `true` for `Ok`. -/
def Mgr.undo (api : CmdApi C S) (m : Mgr C) (sid : Option Nat) (s : S) : Bool × Mgr C × S :=
  match m.stacks (sid.getD 0) with
  | none => (false, m, s)
  | some st =>
    match st.undo with
    | [] => (true, m, s)
    | e :: rest =>
      match e.undo api s with
      | (false, e', s') => (false, m.setStack (sid.getD 0) (some { st with undo := e' :: rest }), s')
      | (true, e', s') =>
        (true, m.setStack (sid.getD 0) (some ⟨rest, e' :: st.redo⟩), s')

/-- `redo`, L271-L294. -/
def Mgr.redo (api : CmdApi C S) (m : Mgr C) (sid : Option Nat) (s : S) : Bool × Mgr C × S :=
  match m.stacks (sid.getD 0) with
  | none => (false, m, s)
  | some st =>
    match st.redo with
    | [] => (true, m, s)
    | e :: rest =>
      match e.redo api s with
      | (false, e', s') => (false, m.setStack (sid.getD 0) (some { st with redo := e' :: rest }), s')
      | (true, e', s') =>
        (true, m.setStack (sid.getD 0) (some ⟨e' :: st.undo, rest⟩), s')

/-- `begin_composite`, L311-L338. -/
def Mgr.begin (m : Mgr C) (sid : Option Nat) : Bool × Mgr C :=
  if m.compStack.isSome && m.compStack != sid then (false, m)
  else
    (true, { m with
      compStack := sid
      level := m.level + 1
      comp := match m.comp with | none => some (sid.getD 0, []) | some c => some c })

/-- `end_composite`, L344-L372; `none` is the panic "Stack must exist". -/
def Mgr.end (m : Mgr C) : Option (Mgr C) :=
  let lvl := m.level - 1
  if lvl = 0 then
    match m.comp with
    | some (_, cs) =>
      if cs.isEmpty then some { m with level := lvl, comp := none }
      else
        match m.stacks (m.compStack.getD 0) with
        | none => none
        | some st =>
          some ({ m with level := lvl, comp := none }.setStack (m.compStack.getD 0)
            (some ⟨.group cs :: st.undo, []⟩))
    | none => some { m with level := lvl }
  else some { m with level := lvl }

/-- `cancel_composite`, L374-L396 (an error of the inner undo is ignored). -/
def Mgr.cancel (api : CmdApi C S) (m : Mgr C) (s : S) : Mgr C × S :=
  let s' := match m.comp with
    | none => s
    | some (_, cs) => ((Entry.group cs).undo api s).2.2
  ({ m with level := m.level - 1, comp := none, compStack := none }, s')

/-- `last_command.can_merge(&*command) && last_command.merge(&*command)`, L435-L437: the last entry
after the attempt, and whether it merged.  A composite never merges (trait default). -/
def tryMerge (api : CmdApi C S) : Entry C → C → Bool × Entry C
  | .group cs, _ => (false, .group cs)
  | .single a, c =>
    if api.canMerge a c then
      match api.merge a c with
      | (ok, a') => (ok, .single a')
    else (false, .single a)

/-- `add_command_to_stack`, L412-L449. -/
def Mgr.add (api : CmdApi C S) (m : Mgr C) (c : C) (sid : Option Nat) : Bool × Mgr C :=
  match m.comp with
  | some (csid, cs) =>
    if csid ≠ sid.getD 0 then (false, m) else (true, { m with comp := some (csid, cs ++ [c]) })
  | none =>
    match m.stacks (sid.getD 0) with
    | none => (false, m)
    | some st =>
      match st.undo with
      | [] => (true, m.setStack (sid.getD 0) (some ⟨[.single c], []⟩))
      | e :: rest =>
        match tryMerge api e c with
        | (true, e') => (true, m.setStack (sid.getD 0) (some ⟨e' :: rest, []⟩))
        | (false, e') => (true, m.setStack (sid.getD 0) (some ⟨.single c :: e' :: rest, []⟩))

/-- `can_undo`, L453-L459. -/
def Mgr.canUndo (m : Mgr C) (sid : Option Nat) : Bool :=
  match m.stacks (sid.getD 0) with | none => false | some st => !st.undo.isEmpty

/-- `can_redo`, L463-L469. -/
def Mgr.canRedo (m : Mgr C) (sid : Option Nat) : Bool :=
  match m.stacks (sid.getD 0) with | none => false | some st => !st.redo.isEmpty

/-- `clear_stack`, L474-L479. -/
def Mgr.clearStack (m : Mgr C) (i : Nat) : Mgr C :=
  match m.stacks i with | none => m | some _ => m.setStack i (some {})

/-- `clear_all_stacks`, L482-L489. -/
def Mgr.clearAll (m : Mgr C) : Mgr C :=
  { m with stacks := fun i => (m.stacks i).map fun _ => {}, comp := none, level := 0 }

/-- `create_new_stack`, L492-L497. -/
def Mgr.create (m : Mgr C) : Nat × Mgr C :=
  (m.next, { m.setStack m.next (some {}) with next := m.next + 1 })

/-- `delete_stack`, L502-L511. -/
def Mgr.delete (m : Mgr C) (i : Nat) : Bool × Mgr C :=
  if i = 0 then (false, m)
  else match m.stacks i with
    | some _ => (true, m.setStack i none)
    | none => (false, m)

end Verif

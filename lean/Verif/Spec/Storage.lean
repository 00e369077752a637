import Verif.Model.SparseSet

/-!
# What a user may rely on about one component storage

A storage is a table from entity index to at most one row. Each call made on the storage is an event
carrying its arguments and results; `step` says what it does to the table, the logs and the callbacks.
Nothing here mentions the sparse array, the dense vector or the order of rows.
-/
namespace Verif.StoSpec
variable {T : Type}

/-- The component of one entity, with the generation of that entity and the two timestamps. -/
structure Row (T : Type) where
  gen : Nat
  val : T
  ins : Nat
  mod : Nat
  deriving DecidableEq, Repr

/-- One call of the closure given to `retain` / `retain_mut`: the id and component it was given, what it
wrote (if it did), and its verdict. -/
structure Call (T : Type) where
  id : EId
  given : T
  wrote : Option T
  keep : Bool
  deriving DecidableEq, Repr

/-- The component a call of the closure leaves behind. -/
def Call.left (c : Call T) : T := c.wrote.getD c.given

/-- One call made on the storage together with its result. -/
inductive Event (T : Type) where
  | inserted (e : EId) (v : T) (now : Nat) (r : InsertionResult T)
  | removed (e : EId) (now : Nat) (r : Option T)
  /-- `delete(e)`; `c` is the component it destroyed -/
  | deleted (e : EId) (now : Nat) (c : Option T)
  /-- components written through mutable accesses: `get`, `apply`, `apply_mut` -/
  | wrote (ws : List (EId × T)) (now : Nat)
  | sorted
  /-- `retain` or `retain_mut`; the calls of the closure in the order they were made -/
  | retained (now : Nat) (calls : List (Call T))
  /-- `clear`; what iterating the storage would have yielded just before -/
  | cleared (now : Nat) (rows : List (EId × T))
  /-- `drain`; what the iterator yields -/
  | drained (now : Nat) (rows : List (EId × T))
  /-- `bulk_insert`: components for new consecutive indices from `start` -/
  | bulk (start stamp : Nat) (vs : List T)
  | trackInsertion | trackModification | trackDeletion | trackRemoval
  | clearInserted (now : Nat) | clearModified (now : Nat)
  | clearDeleted | clearRemoved | clearBoth
  | clearOlder (t : Nat) | clearDeletedOlder (t : Nat) | clearRemovedOlder (t : Nat)
  | onInsertion (set : Bool) | onRemoval (set : Bool)
  /-- `bulk_reserve` of ids from `first` to `last`: memory only. -/
  | reserved (first last : EId)

/-- The state a user can talk about. -/
structure Sto (T : Type) where
  rows : Nat → Option (Row T)
  trkIns : Bool
  trkMod : Bool
  trkDel : Bool
  trkRem : Bool
  lastInsert : Nat
  lastModified : Nat
  deleted : List (EId × Nat × T)
  removed : List (EId × Nat)
  hookIns : Bool
  hookRem : Bool
  insCalls : List (EId × T)
  remCalls : List (EId × T)

def Sto.init (ins mod del rem : Bool) : Sto T :=
  ⟨fun _ => none, ins, mod, del, rem, 0, 0, [], [], false, false, [], []⟩

/-- Change the row of one index. -/
def setRow (rows : Nat → Option (Row T)) (i : Nat) (r : Option (Row T)) : Nat → Option (Row T) :=
  fun j => if j = i then r else rows j

/-- The component a handle gives access to: the generation must be the right one. -/
def lookup (rows : Nat → Option (Row T)) (e : EId) : Option T :=
  (rows e.idx).bind fun r => if r.gen = e.gen then some r.val else none

/-- `x` when the log or timestamp is enabled, else `y`. -/
def tracked {α : Type} (b : Bool) (x y : α) : α := if b then x else y

/-- Insertion: an empty place gets a new row; the same entity gets its component replaced, which is a
modification; a newer entity takes the place over, which is an insertion; an older one is refused. -/
def insertRow (a : Sto T) (e : EId) (v : T) (now : Nat) : Option (Row T) :=
  match a.rows e.idx with
  | none => some ⟨e.gen, v, tracked a.trkIns now 0, 0⟩
  | some r =>
    if r.gen = e.gen then some { r with val := v, mod := tracked a.trkMod now r.mod }
    else if r.gen < e.gen then some { r with gen := e.gen, val := v, ins := tracked a.trkIns now r.ins }
    else some r

/-- Does an insertion take effect? -/
def accepts (a : Sto T) (e : EId) : Bool :=
  match a.rows e.idx with
  | none => true
  | some r => decide (r.gen ≤ e.gen)

/-- Removal: nothing happens if the row belongs to a newer entity. -/
def removeRow (a : Sto T) (e : EId) : Option (Row T) :=
  (a.rows e.idx).bind fun r => if r.gen ≤ e.gen then none else some r

/-- A write through a mutable access. -/
def writeRow (trk : Bool) (now : Nat) (v : T) (r : Row T) : Row T :=
  { r with val := v, mod := tracked trk now r.mod }

def writeRows (trk : Bool) (now : Nat) (rows : Nat → Option (Row T)) :
    List (EId × T) → Nat → Option (Row T)
  | [] => rows
  | (e, v) :: ws => writeRows trk now (setRow rows e.idx ((rows e.idx).map (writeRow trk now v))) ws

/-- What a call of the closure of `retain` does to its row. -/
def callRow (trk : Bool) (now : Nat) (c : Call T) (r : Option (Row T)) : Option (Row T) :=
  if c.keep then
    match c.wrote with
    | some v => r.map (writeRow trk now v)
    | none => r
  else none

def rejected (calls : List (Call T)) : List (Call T) := calls.filter fun c => !c.keep

/-- The effect of one event. -/
def step (a : Sto T) : Event T → Sto T
  | .inserted e v now _ =>
    { a with
      rows := setRow a.rows e.idx (insertRow a e v now)
      insCalls := if a.hookIns && accepts a e then a.insCalls ++ [(e, v)] else a.insCalls }
  | .removed e now r =>
    { a with
      rows := setRow a.rows e.idx (removeRow a e)
      removed := if a.trkRem && r.isSome then a.removed ++ [(e, now)] else a.removed
      remCalls := match r with
        | some v => if a.hookRem then a.remCalls ++ [(e, v)] else a.remCalls
        | none => a.remCalls }
  | .deleted e now r =>
    { a with
      rows := setRow a.rows e.idx (removeRow a e)
      deleted := match r with
        | some v => if a.trkDel then a.deleted ++ [(e, now, v)] else a.deleted
        | none => a.deleted
      remCalls := match r with
        | some v => if a.hookRem then a.remCalls ++ [(e, v)] else a.remCalls
        | none => a.remCalls }
  | .wrote ws now => { a with rows := writeRows a.trkMod now a.rows ws }
  | .sorted => a
  | .retained now calls =>
    { a with
      rows := fun j => match calls.find? (fun c => c.id.idx == j) with
        | some c => callRow a.trkMod now c (a.rows j)
        | none => a.rows j
      deleted := if a.trkDel then
          a.deleted ++ (rejected calls).map fun c => (c.id, now, c.left)
        else a.deleted
      remCalls := if a.hookRem then
          a.remCalls ++ (rejected calls).map fun c => (c.id, c.left)
        else a.remCalls }
  | .cleared now rows =>
    { a with
      rows := fun _ => none
      deleted := if a.trkDel then a.deleted ++ rows.map fun x => (x.1, now, x.2) else a.deleted }
  | .drained now rows =>
    { a with
      rows := fun _ => none
      removed := if a.trkRem then a.removed ++ rows.map fun x => (x.1, now) else a.removed }
  | .bulk start stamp vs =>
    { a with rows := fun j =>
        if start ≤ j then
          match vs[j - start]? with
          | some v => some ⟨0, v, stamp, 0⟩
          | none => a.rows j
        else a.rows j }
  | .trackInsertion =>
    { a with
      trkIns := true
      rows := if a.trkIns then a.rows else fun j => (a.rows j).map fun r => { r with ins := 0 } }
  | .trackModification =>
    { a with
      trkMod := true
      rows := if a.trkMod then a.rows else fun j => (a.rows j).map fun r => { r with mod := 0 } }
  | .trackDeletion => { a with trkDel := true }
  | .trackRemoval => { a with trkRem := true }
  | .clearInserted now => { a with lastInsert := now }
  | .clearModified now => { a with lastModified := now }
  | .clearDeleted => { a with deleted := [] }
  | .clearRemoved => { a with removed := [] }
  | .clearBoth => { a with deleted := [], removed := [] }
  | .clearOlder t =>
    { a with
      deleted := a.deleted.filter fun x => decide (t < x.2.1)
      removed := a.removed.filter fun x => decide (t < x.2) }
  | .clearDeletedOlder t => { a with deleted := a.deleted.filter fun x => decide (t < x.2.1) }
  | .clearRemovedOlder t => { a with removed := a.removed.filter fun x => decide (t < x.2) }
  | .onInsertion b => { a with hookIns := b }
  | .onRemoval b => { a with hookRem := b }
  | .reserved _ _ => a

/-- The state after a history, oldest event first. -/
def after (a : Sto T) (h : List (Event T)) : Sto T := h.foldl step a

/-! ## Executions of the model -/

/-- Ids that exist: the generation of a live entity stays below 65535 and its index below the mask. -/
def Valid (e : EId) : Prop := e.gen < 65535 ∧ e.idx < EId.INDEX_MASK
instance (e : EId) : Decidable (Valid e) := inferInstanceAs (Decidable (_ ∧ _))

/-- The closure given to `retain_mut`, also keeping a record of its own calls. -/
def recording {σ : Type} (f : σ → EId → T → Option T × Bool × σ) :
    σ × List (Call T) → EId → T → Option T × Bool × (σ × List (Call T)) :=
  fun st e v =>
    let r := f st.1 e v
    (r.1, r.2.1, (r.2.2, st.2 ++ [⟨e, v, r.1, r.2.1⟩]))

/-- The same for `retain`, whose closure cannot write. -/
def recordingRef {σ : Type} (f : σ → EId → T → Bool × σ) :
    σ × List (Call T) → EId → T → Bool × (σ × List (Call T)) :=
  fun st e v =>
    let r := f st.1 e v
    (r.1, (r.2, st.2 ++ [⟨e, v, none, r.1⟩]))

/-- One call on the model. -/
inductive Step : SparseSet T → Event T → SparseSet T → Prop where
  | insert {s e v now r s'} : Valid e → s.insert e v now = .ok (r, s') →
      Step s (.inserted e v now r) s'
  | remove {s e now r s'} : Valid e → s.dynRemove e now = .ok (r, s') → Step s (.removed e now r) s'
  | delete {s e now c b s'} : Valid e → s.get e = .ok c → s.dynDelete e now = .ok (b, s') →
      Step s (.deleted e now c) s'
  | write {s e now v s'} : Valid e → s.modify e now (fun _ => v) = .ok (true, s') →
      Step s (.wrote [(e, v)] now) s'
  | apply {s a b now v s'} {g : T → T → T} : Valid a → Valid b →
      s.apply a b (fun x y => (g x y, g x y)) now = .ok (v, s') → Step s (.wrote [(a, v)] now) s'
  | applyMut {s a b now v w s'} {g : T → T → T × T} : Valid a → Valid b →
      s.applyMut a b (fun x y => ((g x y).1, (g x y).2, g x y)) now = .ok ((v, w), s') →
      Step s (.wrote [(a, v), (b, w)] now) s'
  | sort {s perm s'} : perm.Perm (List.range s.data.length) → s.sortWith perm = .ok s' →
      Step s .sorted s'
  | retain {s now s' calls} {σ : Type} {st st' : σ} {f : σ → EId → T → Bool × σ} :
      s.retain now (st, []) (recordingRef f) = .ok ((st', calls), s') →
      Step s (.retained now calls) s'
  | retainMut {s now s' calls} {σ : Type} {st st' : σ} {f : σ → EId → T → Option T × Bool × σ} :
      s.retainMut now (st, []) (recording f) = .ok ((st', calls), s') →
      Step s (.retained now calls) s'
  | clear {s now s'} : s.clear now = .ok s' → Step s (.cleared now (s.dense.zip s.data)) s'
  | drain {s now d s'} : s.drain now = .ok (d, s') → Step s (.drained now (d.ids.zip d.data)) s'
  | bulk {s start stamp vs s'} : (∀ e ∈ s.dense, e.idx < start) →
      start + vs.length ≤ EId.INDEX_MASK →
      s.bulkInsert ((List.range vs.length).map fun k => ⟨start + k, 0⟩) vs stamp = .ok s' →
      Step s (.bulk start stamp vs) s'
  | trackInsertion {s} : Step s .trackInsertion s.trackInsertion
  | trackModification {s} : Step s .trackModification s.trackModification
  | trackDeletion {s} : Step s .trackDeletion s.trackDeletion
  | trackRemoval {s} : Step s .trackRemoval s.trackRemoval
  | clearInserted {s now} : Step s (.clearInserted now) (s.clearAllInserted now)
  | clearModified {s now} : Step s (.clearModified now) (s.clearAllModified now)
  | clearDeleted {s} : Step s .clearDeleted s.clearAllDeleted
  | clearRemoved {s} : Step s .clearRemoved s.clearAllRemoved
  | clearBoth {s} : Step s .clearBoth s.storageClearAllRemovedAndDeleted
  | clearOlder {s t} : Step s (.clearOlder t) (s.clearAllRemovedAndDeletedOlderThan t)
  | clearDeletedOlder {s t} : Step s (.clearDeletedOlder t) (s.clearAllDeletedOlderThan t)
  | clearRemovedOlder {s t} : Step s (.clearRemovedOlder t) (s.clearAllRemovedOlderThan t)
  | onInsertion {s b} : Step s (.onInsertion b) (s.setOnInsertion b)
  | onRemoval {s b} : Step s (.onRemoval b) (s.setOnRemoval b)
  | reserve {s ids first last s'} : ids.head? = some first → ids.getLast? = some last → first.idx ≤ last.idx →
      s.bulkReserve ids = .ok s' → Step s (.reserved first last) s'

/-- `Run s0 h s`: the calls `h`, oldest first, lead from `s0` to `s`. -/
inductive Run (s0 : SparseSet T) : List (Event T) → SparseSet T → Prop where
  | nil : Run s0 [] s0
  | snoc {h s ev s'} : Run s0 h s → Step s ev s' → Run s0 (h ++ [ev]) s'

/-- No component was ever inserted over the component of an older entity with the same index. Programs
that add components to alive entities only and delete entities through the world are of this kind. -/
def NoTakeover (h : List (Event T)) : Prop :=
  ∀ e v now, Event.inserted e v now .otherComponentOverride ∉ h

end Verif.StoSpec

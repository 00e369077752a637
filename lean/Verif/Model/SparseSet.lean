import Verif.Model.SparseArray

/-!
# `SparseSet`: component storage

Models `src/sparse_set/mod.rs`, `src/sparse_set/drain.rs`, the parts of
`src/sparse_set/bulk_add_entity.rs` that touch a storage, and `Mut` (`src/mut.rs`).

`Vec` indexing with `[i]`, `swap` and `swap_remove` out of bounds panic; `get_unchecked` out of bounds is
`Fault.oob`. Timestamps are `Nat`; `TrackingTimestamp::origin()` and `new(0)` are 0
(`src/advanced/tracking.rs`, see `Verif/Model/Tracking.lean`).
-/
namespace Verif

/-- `src/sparse_set/mod.rs:198-207` `InsertionResult`. -/
inductive InsertionResult (T : Type) where
  | inserted
  | componentOverride (old : T)
  | otherComponentOverride
  | notInserted
  deriving DecidableEq, Repr

/-- `src/sparse_set/mod.rs:211-218` `was_inserted`. -/
def InsertionResult.wasInserted {T : Type} : InsertionResult T → Bool
  | .inserted | .componentOverride _ | .otherComponentOverride => true
  | .notInserted => false

/-- `src/sparse_set/mod.rs:52-71`. A callback is represented by a flag (is one registered) and the list
of its calls, oldest first. -/
structure SparseSet (T : Type) where
  sparse : SparseArray
  dense : List EId
  data : List T
  lastInsert : Nat
  lastModified : Nat
  insertionData : List Nat
  modificationData : List Nat
  deletionData : List (EId × Nat × T)
  removalData : List (EId × Nat)
  trkIns : Bool
  trkMod : Bool
  trkDel : Bool
  trkRem : Bool
  hookIns : Bool
  logIns : List (EId × T)
  hookRem : Bool
  logRem : List (EId × T)
  canClone : Bool
  deriving DecidableEq, Repr

/-- `Vec::swap_remove`: the element at `i` and the vector with the last element moved to `i`. -/
def swapRemove {α : Type} (l : List α) (i : Nat) : Res (α × List α) :=
  match l[i]?, l.getLast? with
  | some a, some z => .ok (a, (l.set i z).dropLast)
  | _, _ => .error .panic

/-- `slice::swap`. -/
def swapAt {α : Type} (l : List α) (i j : Nat) : Res (List α) :=
  match l[i]?, l[j]? with
  | some a, some b => .ok ((l.set i b).set j a)
  | _, _ => .error .panic

/-- `*v.get_unchecked(i)`. -/
def vecGetU {α : Type} (l : List α) (i : Nat) : Res α :=
  match l[i]? with
  | some a => .ok a
  | none => .error .oob

/-- `*v.get_unchecked_mut(i) = x`. -/
def vecSetU {α : Type} (l : List α) (i : Nat) (x : α) : Res (List α) :=
  if i < l.length then .ok (l.set i x) else .error .oob

/-- `v[i] = x`. -/
def vecSetC {α : Type} (l : List α) (i : Nat) (x : α) : Res (List α) :=
  if i < l.length then .ok (l.set i x) else .error .panic

/-- `if is_tracking { v.swap_remove(i); }`. -/
def swapRemoveIf {α : Type} (b : Bool) (l : List α) (i : Nat) : Res (List α) :=
  if b then (swapRemove l i).map (·.2) else .ok l

/-- `if is_tracking { v.swap(i, j); }`. -/
def swapIf {α : Type} (b : Bool) (l : List α) (i j : Nat) : Res (List α) :=
  if b then swapAt l i j else .ok l

/-- `if is_tracking { *v.get_unchecked_mut(i) = x; }`. -/
def setUIf {α : Type} (b : Bool) (l : List α) (i : Nat) (x : α) : Res (List α) :=
  if b then vecSetU l i x else .ok l

/-- `if is_tracking { v[i] = x; }`. -/
def setCIf {α : Type} (b : Bool) (l : List α) (i : Nat) (x : α) : Res (List α) :=
  if b then vecSetC l i x else .ok l

/-- `src/entity_id/mod.rs:81-94` `new_from_index_and_gen`. -/
def EId.fromParts (i g : Nat) : Res EId :=
  if i < EId.INDEX_MASK then .ok ⟨i, g⟩ else .error .panic

namespace SparseSet
variable {T : Type}

/-- `src/sparse_set/mod.rs:79-102` `new`; the flags come from `T::Tracking`. -/
def new (ins mod del rem : Bool) : SparseSet T where
  sparse := SparseArray.new
  dense := []
  data := []
  lastInsert := 0
  lastModified := 0
  insertionData := []
  modificationData := []
  deletionData := []
  removalData := []
  trkIns := ins
  trkMod := mod
  trkDel := del
  trkRem := rem
  hookIns := false
  logIns := []
  hookRem := false
  logRem := []
  canClone := false

/-- `src/sparse_set/mod.rs:137-146` `index_of`. -/
def indexOf (s : SparseSet T) (e : EId) : Res (Option Nat) := do
  match ← s.sparse.get e with
  | some x => if e.gen = x.gen then .ok (some x.idx) else .ok none
  | none => .ok none

/-- `src/sparse_set/mod.rs:118-120` `contains`. -/
def contains (s : SparseSet T) (e : EId) : Res Bool := do
  let i ← s.indexOf e
  .ok i.isSome

/-- `src/sparse_set/mod.rs:188-191` `private_get`. -/
def get (s : SparseSet T) (e : EId) : Res (Option T) := do
  match ← s.indexOf e with
  | some i => do
    let c ← vecGetU s.data i
    .ok (some c)
  | none => .ok none

/-- Calling `on_insertion` (`src/sparse_set/mod.rs:249-251`, `269-271`, `295-297`). -/
def callIns (s : SparseSet T) (e : EId) (v : T) : SparseSet T :=
  if s.hookIns then { s with logIns := s.logIns ++ [(e, v)] } else s

/-- Calling `on_removal` (`src/sparse_set/mod.rs:377-379`). -/
def callRem (s : SparseSet T) (e : EId) (v : T) : SparseSet T :=
  if s.hookRem then { s with logRem := s.logRem ++ [(e, v)] } else s

/-- `src/sparse_set/mod.rs:164-166` `on_insertion` (`true`) and `170-174` `take_on_insertion` (`false`). -/
def setOnInsertion (s : SparseSet T) (b : Bool) : SparseSet T := { s with hookIns := b }
/-- `src/sparse_set/mod.rs:177-179` `on_removal` (`true`) and `183-187` `take_on_removal` (`false`). -/
def setOnRemoval (s : SparseSet T) (b : Bool) : SparseSet T := { s with hookRem := b }

/-- `src/sparse_set/mod.rs:234-319` `insert`. -/
def insert (s : SparseSet T) (e : EId) (v : T) (current : Nat) :
    Res (InsertionResult T × SparseSet T) := do
  let sp ← s.sparse.allocateAt e
  let x ← sp.getU e
  let s := { s with sparse := sp }
  if x.isDead then do
    let s := s.callIns e v
    let x' ← EId.fromParts s.dense.length e.gen
    let sp ← s.sparse.setU e x'
    .ok (.inserted, { s with
      sparse := sp
      insertionData := if s.trkIns then s.insertionData ++ [current] else s.insertionData
      modificationData := if s.trkMod then s.modificationData ++ [0] else s.modificationData
      dense := s.dense ++ [e]
      data := s.data ++ [v] })
  else if e.gen = x.gen then do
    let s := s.callIns e v
    let old ← vecGetU s.data x.idx
    let data ← vecSetU s.data x.idx v
    let sp ← s.sparse.setU e (x.copyGen e)
    let d ← vecGetU s.dense x.idx
    let m ← setUIf s.trkMod s.modificationData x.idx current
    let dense ← vecSetU s.dense x.idx (d.copyIndexGen e)
    .ok (.componentOverride old, { s with
      sparse := sp, data := data, dense := dense, modificationData := m })
  else if e.gen > x.gen then do
    let s := s.callIns e v
    let data ← vecSetU s.data x.idx v
    let sp ← s.sparse.setU e (x.copyGen e)
    let d ← vecGetU s.dense x.idx
    let i ← setUIf s.trkIns s.insertionData x.idx current
    let dense ← vecSetU s.dense x.idx (d.copyIndexGen e)
    .ok (.otherComponentOverride, { s with
      sparse := sp, data := data, dense := dense, insertionData := i })
  else .ok (.notInserted, s)

/-- Pointing the element moved by `swap_remove` to its new place (`src/sparse_set/mod.rs:367-374`). -/
def relink (sp : SparseArray) (dense : List EId) (x : EId) : Res SparseArray :=
  if x.idx < dense.length then do
    let last ← vecGetU dense x.idx
    let y ← sp.getU last
    sp.setU last (y.copyIndex x)
  else .ok sp

/-- `src/sparse_set/mod.rs:350-389` `actual_remove`. -/
def actualRemove (s : SparseSet T) (e : EId) : Res (Option T × SparseSet T) := do
  match ← s.sparse.get e with
  | none => .ok (none, s)
  | some x =>
    if e.gen ≥ x.gen then do
      let sp ← s.sparse.setU e EId.dead
      let (_, dense) ← swapRemove s.dense x.idx
      let ins ← swapRemoveIf s.trkIns s.insertionData x.idx
      let mod ← swapRemoveIf s.trkMod s.modificationData x.idx
      let (comp, data) ← swapRemove s.data x.idx
      let sp ← relink sp dense x
      let s := { s with
        sparse := sp, dense := dense, data := data, insertionData := ins, modificationData := mod }
      if e.gen = x.gen then .ok (some comp, s.callRem e comp)
      else .ok (none, s)
    else .ok (none, s)

/-- `src/sparse_set/mod.rs:325-335` `dyn_delete`. -/
def dynDelete (s : SparseSet T) (e : EId) (current : Nat) : Res (Bool × SparseSet T) := do
  match ← s.actualRemove e with
  | (some c, s) =>
    .ok (true, if s.trkDel then { s with deletionData := s.deletionData ++ [(e, current, c)] } else s)
  | (none, s) => .ok (false, s)

/-- `src/sparse_set/mod.rs:339-347` `dyn_remove`. -/
def dynRemove (s : SparseSet T) (e : EId) (current : Nat) : Res (Option T × SparseSet T) := do
  let (c, s) ← s.actualRemove e
  .ok (c, if c.isSome && s.trkRem then { s with removalData := s.removalData ++ [(e, current)] }
    else s)

/-- `src/sparse_set/mod.rs:394-396`, `799-801` `clear_all_inserted`. -/
def clearAllInserted (s : SparseSet T) (current : Nat) : SparseSet T := { s with lastInsert := current }
/-- `src/sparse_set/mod.rs:398-400`, `802-804` `clear_all_modified`. -/
def clearAllModified (s : SparseSet T) (current : Nat) : SparseSet T :=
  { s with lastModified := current }
/-- `src/sparse_set/mod.rs:402-405`. -/
def clearAllInsertedAndModified (s : SparseSet T) (current : Nat) : SparseSet T :=
  { s with lastInsert := current, lastModified := current }
/-- `src/sparse_set/mod.rs:407-409` `clear_all_deleted`. -/
def clearAllDeleted (s : SparseSet T) : SparseSet T := { s with deletionData := [] }
/-- `src/sparse_set/mod.rs:411-414`; `is_older_than` is `<` (`src/advanced/tracking.rs`). -/
def clearAllDeletedOlderThan (s : SparseSet T) (t : Nat) : SparseSet T :=
  { s with deletionData := s.deletionData.filter fun x => decide (t < x.2.1) }
/-- `src/sparse_set/mod.rs:416-418` `clear_all_removed`. -/
def clearAllRemoved (s : SparseSet T) : SparseSet T := { s with removalData := [] }
/-- `src/sparse_set/mod.rs:420-423`. -/
def clearAllRemovedOlderThan (s : SparseSet T) (t : Nat) : SparseSet T :=
  { s with removalData := s.removalData.filter fun x => decide (t < x.2) }
/-- `src/sparse_set/mod.rs:425-427` the inherent `clear_all_removed_and_deleted`, which the views call. -/
def clearAllRemovedAndDeleted (s : SparseSet T) : SparseSet T := { s with removalData := [] }
/-- `src/sparse_set/mod.rs:805-808` `Storage::clear_all_removed_and_deleted`, which the world calls. -/
def storageClearAllRemovedAndDeleted (s : SparseSet T) : SparseSet T :=
  { s with deletionData := [], removalData := [] }
/-- `src/sparse_set/mod.rs:429-437`, `809-815`. -/
def clearAllRemovedAndDeletedOlderThan (s : SparseSet T) (t : Nat) : SparseSet T :=
  { s with
    deletionData := s.deletionData.filter fun x => decide (t < x.2.1)
    removalData := s.removalData.filter fun x => decide (t < x.2) }

/-- `src/sparse_set/mod.rs:443-454` `track_insertion`. -/
def trackInsertion (s : SparseSet T) : SparseSet T :=
  if s.trkIns then s
  else { s with
    trkIns := true, insertionData := s.insertionData ++ List.replicate s.dense.length 0 }
/-- `src/sparse_set/mod.rs:457-468` `track_modification`. -/
def trackModification (s : SparseSet T) : SparseSet T :=
  if s.trkMod then s
  else { s with
    trkMod := true, modificationData := s.modificationData ++ List.replicate s.dense.length 0 }
/-- `src/sparse_set/mod.rs:470-473` `track_deletion`. -/
def trackDeletion (s : SparseSet T) : SparseSet T := { s with trkDel := true }
/-- `src/sparse_set/mod.rs:475-478` `track_removal`. -/
def trackRemoval (s : SparseSet T) : SparseSet T := { s with trkRem := true }

/-- The `while pos < i` loop of `sort_unstable_by` (`src/sparse_set/mod.rs:562-565`), with fuel. -/
def chase (perm : List Nat) (i : Nat) : Nat → Nat → Res Nat
  | 0, _ => .error .diverge
  | fuel + 1, pos =>
    if pos < i then do
      let p ← vecGetU perm pos
      chase perm i fuel p
    else .ok pos

/-- The swapping loop of `sort_unstable_by` (`src/sparse_set/mod.rs:558-574`) for `n` rounds starting
at `i`. The fuel of the inner loop is `i + 1`; the lemmas show that it suffices. -/
def sortLoop (perm : List Nat) (s : SparseSet T) (i : Nat) : Nat → Res (SparseSet T)
  | 0 => .ok s
  | n + 1 => do
    let p ← vecGetU perm i
    let pos ← chase perm i (i + 1) p
    let dense ← swapAt s.dense i pos
    let data ← swapAt s.data i pos
    let ins ← swapIf s.trkIns s.insertionData i pos
    let mod ← swapIf s.trkMod s.modificationData i pos
    sortLoop perm
      { s with dense := dense, data := data, insertionData := ins, modificationData := mod } (i + 1) n

/-- The loop repairing the sparse array (`src/sparse_set/mod.rs:576-580`): `set_index(i)` for each of
the ids, the first having position `i`. -/
def reindex (sp : SparseArray) (i : Nat) : List EId → Res SparseArray
  | [] => .ok sp
  | e :: es => do
    let x ← sp.getU e
    let x' ← x.setIndex i
    let sp ← sp.setU e x'
    reindex sp (i + 1) es

/-- `src/sparse_set/mod.rs:548-581` `sort_unstable_by`. `perm` is what the standard library's
`sort_unstable_by` leaves in `transform`. -/
def sortWith (s : SparseSet T) (perm : List Nat) : Res (SparseSet T) := do
  let s ← sortLoop perm s 0 perm.length
  let sp ← reindex s.sparse 0 s.dense
  .ok { s with sparse := sp }

/-- `src/sparse_set/mod.rs:591-622` `private_apply`. The closure gets both components and returns the
new first one and its result. `[]` on `modification_data` is checked. -/
def apply {R : Type} (s : SparseSet T) (a b : EId) (f : T → T → T × R) (current : Nat) :
    Res (R × SparseSet T) := do
  match ← s.indexOf a with
  | none => .error .panic
  | some i => match ← s.indexOf b with
    | none => .error .panic
    | some j =>
      if i ≠ j then do
        let m ← setCIf s.trkMod s.modificationData i current
        let x ← vecGetU s.data i
        let y ← vecGetU s.data j
        let (x', r) := f x y
        let data ← vecSetU s.data i x'
        .ok (r, { s with data := data, modificationData := m })
      else .error .panic

/-- `src/sparse_set/mod.rs:633-666` `private_apply_mut`. -/
def applyMut {R : Type} (s : SparseSet T) (a b : EId) (f : T → T → T × T × R) (current : Nat) :
    Res (R × SparseSet T) := do
  match ← s.indexOf a with
  | none => .error .panic
  | some i => match ← s.indexOf b with
    | none => .error .panic
    | some j =>
      if i ≠ j then do
        let m ← setCIf s.trkMod s.modificationData i current
        let m ← setCIf s.trkMod m j current
        let x ← vecGetU s.data i
        let y ← vecGetU s.data j
        let (x', y', r) := f x y
        let data ← vecSetU s.data i x'
        let data ← vecSetU data j y'
        .ok (r, { s with data := data, modificationData := m })
      else .error .panic

/-- `for &id in &self.dense { *self.sparse.get_mut_unchecked(id) = EntityId::dead() }`
(`src/sparse_set/mod.rs:670-674`, `699-704`). -/
def killAll (sp : SparseArray) : List EId → Res SparseArray
  | [] => .ok sp
  | e :: es => do
    let sp ← sp.setU e EId.dead
    killAll sp es

/-- `src/sparse_set/mod.rs:669-690` `private_clear`. -/
def clear (s : SparseSet T) (current : Nat) : Res (SparseSet T) := do
  let sp ← killAll s.sparse s.dense
  .ok { s with
    sparse := sp
    insertionData := []
    modificationData := []
    dense := []
    data := []
    deletionData := if s.trkDel then
        s.deletionData ++ (s.dense.zip s.data).map fun x => (x.1, current, x.2)
      else s.deletionData }

/-- `SparseSetDrain` (`src/sparse_set/drain.rs:8-12`): the ids still behind `dense_ptr`, the number of
components at the start, and the components not yet yielded. -/
structure Drain (T : Type) where
  ids : List EId
  denseLen : Nat
  data : List T
  deriving DecidableEq, Repr

/-- `src/sparse_set/mod.rs:693-721` `private_drain`: the storage is emptied before the iterator is
returned (the vectors' lengths are set to 0 by `set_len` and `Vec::drain`), whatever is done with it. -/
def drain (s : SparseSet T) (current : Nat) : Res (Drain T × SparseSet T) := do
  let sp ← killAll s.sparse s.dense
  .ok ({ ids := s.dense, denseLen := s.dense.length, data := s.data },
    { s with
      sparse := sp
      insertionData := []
      modificationData := []
      dense := []
      data := []
      removalData := if s.trkRem then s.removalData ++ s.dense.map fun e => (e, current)
        else s.removalData })

/-- `src/sparse_set/drain.rs:21-27` `next`. -/
def Drain.next (d : Drain T) : Option (T × Drain T) :=
  match d.data with
  | [] => none
  | x :: xs => some (x, { d with data := xs })

/-- `src/sparse_set/drain.rs:29-45` `next` of `with_id()`: the id is read at
`dense_ptr.add(dense_len - 1 - data.len())` after the component was taken. `usize` subtraction below 0
panics in debug builds. -/
def Drain.nextWithId (d : Drain T) : Res (Option ((EId × T) × Drain T)) :=
  match d.data with
  | [] => .ok none
  | x :: xs =>
    if d.denseLen ≥ 1 + xs.length then do
      let id ← vecGetU d.ids (d.denseLen - 1 - xs.length)
      .ok (some ((id, x), { d with data := xs }))
    else .error .panic

/-- The loop of `private_retain` (`src/sparse_set/mod.rs:728-739`) for `n` rounds, at position
`i - removed`. The predicate may have side effects: its state is `σ`. -/
def retainLoop {σ : Type} (f : σ → EId → T → Bool × σ) (current : Nat) (s : SparseSet T) (st : σ)
    (pos : Nat) : Nat → Res (σ × SparseSet T)
  | 0 => .ok (st, s)
  | n + 1 => do
    let e ← vecGetU s.dense pos
    let c ← vecGetU s.data pos
    let (keep, st) := f st e c
    if keep then retainLoop f current s st (pos + 1) n
    else do
      let (_, s) ← s.dynDelete e current
      retainLoop f current s st pos n

/-- `src/sparse_set/mod.rs:723-740` `private_retain`. -/
def retain {σ : Type} (s : SparseSet T) (current : Nat) (st : σ) (f : σ → EId → T → Bool × σ) :
    Res (σ × SparseSet T) := retainLoop f current s st 0 s.dense.length

/-- `DerefMut::deref_mut` / `as_mut` on the `Mut` of row `i` followed by a write
(`src/mut.rs:34-43`, `52-61`): the flag is there iff `modification_data` has row `i`. -/
def writeRow (s : SparseSet T) (i : Nat) (current : Nat) (g : T → T) : Res (SparseSet T) := do
  let x ← vecGetU s.data i
  let data ← vecSetU s.data i (g x)
  .ok { s with data := data, modificationData := s.modificationData.set i current }

/-- What the closure of `retain_mut` does with its `Mut`: nothing, or a write. -/
def writeOpt (s : SparseSet T) (i : Nat) (current : Nat) : Option T → Res (SparseSet T)
  | some v => writeRow s i current (fun _ => v)
  | none => .ok s

/-- The loop of `private_retain_mut` (`src/sparse_set/mod.rs:748-762`). The closure receives a `Mut`:
it answers with the new value if it went through `DerefMut`, `none` if it did not. -/
def retainMutLoop {σ : Type} (f : σ → EId → T → Option T × Bool × σ) (current : Nat) (s : SparseSet T)
    (st : σ) (pos : Nat) : Nat → Res (σ × SparseSet T)
  | 0 => .ok (st, s)
  | n + 1 => do
    let e ← vecGetU s.dense pos
    let c ← vecGetU s.data pos
    let (w, keep, st) := f st e c
    let s ← writeOpt s pos current w
    if keep then retainMutLoop f current s st (pos + 1) n
    else do
      let (_, s) ← s.dynDelete e current
      retainMutLoop f current s st pos n

/-- `src/sparse_set/mod.rs:742-763` `private_retain_mut`. -/
def retainMut {σ : Type} (s : SparseSet T) (current : Nat) (st : σ)
    (f : σ → EId → T → Option T × Bool × σ) : Res (σ × SparseSet T) :=
  retainMutLoop f current s st 0 s.dense.length

/-- Writing the component of `e` through the `Mut` returned by `(&mut view).get(e)`
(`src/get.rs:77-106`, `src/mut.rs:34-43`); `false` is `Err(MissingComponent)`. -/
def modify (s : SparseSet T) (e : EId) (current : Nat) (g : T → T) : Res (Bool × SparseSet T) := do
  match ← s.indexOf e with
  | none => .ok (false, s)
  | some i => do
    let m ← setUIf s.trkMod s.modificationData i current
    let x ← vecGetU s.data i
    let data ← vecSetU s.data i (g x)
    .ok (true, { s with data := data, modificationData := m })

/-- The loop of `bulk_insert` filling the sparse array (`src/sparse_set/bulk_add_entity.rs:102-106`). -/
def bulkFill (sp : SparseArray) (i : Nat) : List EId → Res SparseArray
  | [] => .ok sp
  | e :: es => do
    let x ← EId.new i
    let sp ← sp.setU e x
    bulkFill sp (i + 1) es

/-- The storage part of `bulk_insert` (`src/sparse_set/bulk_add_entity.rs:75-106` for one component
with `stamp = current`, `160-196` for tuples with `stamp = 0`): `comps` are appended, `ids` are the ids
made by `bulk_generate`. `dense[old_len]` panics when nothing was added. -/
def bulkInsert (s : SparseSet T) (ids : List EId) (comps : List T) (stamp : Nat) :
    Res (SparseSet T) := do
  let oldLen := s.dense.length
  let data := s.data ++ comps
  let dense := s.dense ++ ids
  let ins := if s.trkIns then s.insertionData ++ ids.map fun _ => stamp else s.insertionData
  let mod := if s.trkMod then s.modificationData ++ ids.map fun _ => 0 else s.modificationData
  match dense[oldLen]?, dense[dense.length - 1]? with
  | some first, some last => do
    let sp ← s.sparse.bulkAllocate first last
    let sp ← bulkFill sp oldLen ids
    .ok { s with
      sparse := sp, data := data, dense := dense, insertionData := ins, modificationData := mod }
  | _, _ => .error .panic

/-- `src/advanced/reserve.rs:95-106` `bulk_reserve` of a `ViewMut`; the capacity of the vectors is not part of the model. -/
def bulkReserve (s : SparseSet T) (ids : List EId) : Res (SparseSet T) :=
  match ids.head?, ids.getLast? with
  | some first, some last => do
    let sp ← s.sparse.bulkAllocate first last
    .ok { s with sparse := sp }
  | _, _ => .ok s

end SparseSet
end Verif

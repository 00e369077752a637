import Verif.Model.SparseSet

/-!
# Calls that unwind out of user code

The functions of `src/sparse_set/mod.rs` that run code of the user while they work, as functions that can
also end because that code panicked. Rust then unwinds: the locals of the interrupted function are dropped
and its caller sees a panic, which it may catch (`std::panic::catch_unwind`, a joined thread, a test). The
storage keeps whatever had been done to it. `Fault` stays what it was: a panic or an invalid access of the
crate itself.

User code is: the two callbacks, the closures, the comparator, the destructors of components and the
iterator given to `bulk_add_entity`. Each function gets, as flags or as the answer of the closure, whether
the code it runs panics. Simplification: one panic at a time. A second panic while unwinding aborts the
process.
-/
namespace Verif

/-- The user code a call unwound out of. -/
inductive Where where
  /-- `on_insertion` or `on_removal` -/
  | hook
  /-- the destructor of a component -/
  | dtor
  /-- the closure or the comparator -/
  | closure
  /-- not user code: the panic documented for calls whose arguments are refused -/
  | refused
  deriving DecidableEq, Repr

/-- How a call ended. -/
inductive Out (α : Type) where
  | returned (a : α)
  | unwound (w : Where)
  deriving DecidableEq, Repr

/-- What the closure of `retain` / `retain_mut` does: answers that the component stays, answers that it
goes, in which case `on_removal` and the component's destructor may still panic, or panics. -/
inductive Verdict where
  | keep
  | drop (hookPanics dtorPanics : Bool)
  | panic
  deriving DecidableEq, Repr

namespace SparseSet
variable {T : Type}

/-- `src/sparse_set/mod.rs:234-319` `insert`. `on_insertion` is called in each of the three branches that
insert, before the storage is changed (`249-251`, `269-271`, `295-297`). The component replaced in the
third branch is dropped at once, by `let _ = mem::replace(..)` (`299-301`), before `copy_gen`; the one
replaced in the second branch is returned. -/
def insertU (s : SparseSet T) (e : EId) (v : T) (current : Nat) (hookPanics dtorPanics : Bool) :
    Res (Out (InsertionResult T) × SparseSet T) := do
  let sp ← s.sparse.allocateAt e
  let x ← sp.getU e
  let s := { s with sparse := sp }
  if x.isDead then do
    let s := s.callIns e v
    if s.hookIns && hookPanics then .ok (.unwound .hook, s)
    else do
      let x' ← EId.fromParts s.dense.length e.gen
      let sp ← s.sparse.setU e x'
      .ok (.returned .inserted, { s with
        sparse := sp
        insertionData := if s.trkIns then s.insertionData ++ [current] else s.insertionData
        modificationData := if s.trkMod then s.modificationData ++ [0] else s.modificationData
        dense := s.dense ++ [e]
        data := s.data ++ [v] })
  else if e.gen = x.gen then do
    let s := s.callIns e v
    if s.hookIns && hookPanics then .ok (.unwound .hook, s)
    else do
      let old ← vecGetU s.data x.idx
      let data ← vecSetU s.data x.idx v
      let sp ← s.sparse.setU e (x.copyGen e)
      let d ← vecGetU s.dense x.idx
      let m ← setUIf s.trkMod s.modificationData x.idx current
      let dense ← vecSetU s.dense x.idx (d.copyIndexGen e)
      .ok (.returned (.componentOverride old), { s with
        sparse := sp, data := data, dense := dense, modificationData := m })
  else if e.gen > x.gen then do
    let s := s.callIns e v
    if s.hookIns && hookPanics then .ok (.unwound .hook, s)
    else do
      let data ← vecSetU s.data x.idx v
      if dtorPanics then .ok (.unwound .dtor, { s with data := data })
      else do
        let sp ← s.sparse.setU e (x.copyGen e)
        let d ← vecGetU s.dense x.idx
        let i ← setUIf s.trkIns s.insertionData x.idx current
        let dense ← vecSetU s.dense x.idx (d.copyIndexGen e)
        .ok (.returned .otherComponentOverride, { s with
          sparse := sp, data := data, dense := dense, insertionData := i })
  else .ok (.returned .notInserted, s)

/-- `src/sparse_set/mod.rs:350-389` `actual_remove`. `on_removal` is called when everything is done
(`377-379`); the component of a stale entity is dropped when the block ends (`383-385`). -/
def actualRemoveU (s : SparseSet T) (e : EId) (hookPanics dtorPanics : Bool) :
    Res (Out (Option T) × SparseSet T) := do
  match ← s.sparse.get e with
  | none => .ok (.returned none, s)
  | some x =>
    if e.gen ≥ x.gen then do
      let sp ← s.sparse.setU e EId.dead
      let (_, dense) ← swapRemove s.dense x.idx
      let ins ← swapRemoveIf s.trkIns s.insertionData x.idx
      let mod ← swapRemoveIf s.trkMod s.modificationData x.idx
      let (comp, data) ← swapRemove s.data x.idx
      let sp ← relink sp dense x
      let s := { s with
        sparse := sp, dense := dense, data := data, insertionData := ins, modificationData := mod }
      if e.gen = x.gen then
        if s.hookRem && hookPanics then .ok (.unwound .hook, s.callRem e comp)
        else .ok (.returned (some comp), s.callRem e comp)
      else if dtorPanics then .ok (.unwound .dtor, s)
      else .ok (.returned none, s)
    else .ok (.returned none, s)

/-- `src/sparse_set/mod.rs:325-335` `dyn_delete`: without deletion tracking the component is dropped. -/
def dynDeleteU (s : SparseSet T) (e : EId) (current : Nat) (hookPanics dtorPanics : Bool) :
    Res (Out Bool × SparseSet T) := do
  match ← s.actualRemoveU e hookPanics dtorPanics with
  | (.unwound w, s) => .ok (.unwound w, s)
  | (.returned (some c), s) =>
    if s.trkDel then
      .ok (.returned true, { s with deletionData := s.deletionData ++ [(e, current, c)] })
    else if dtorPanics then .ok (.unwound .dtor, s)
    else .ok (.returned true, s)
  | (.returned none, s) => .ok (.returned false, s)

/-- `src/sparse_set/mod.rs:339-347` `dyn_remove`: the component is returned. -/
def dynRemoveU (s : SparseSet T) (e : EId) (current : Nat) (hookPanics dtorPanics : Bool) :
    Res (Out (Option T) × SparseSet T) := do
  match ← s.actualRemoveU e hookPanics dtorPanics with
  | (.unwound w, s) => .ok (.unwound w, s)
  | (.returned c, s) =>
    .ok (.returned c, if c.isSome && s.trkRem then { s with removalData := s.removalData ++ [(e, current)] }
      else s)

/-- `src/sparse_set/mod.rs:548-581` `sort_unstable_by`: the comparator only runs while `transform` is
sorted (`551-556`); `none` is a comparator that panics, the standard library's sort passing it on. -/
def sortU (s : SparseSet T) (perm : Option (List Nat)) : Res (Out Unit × SparseSet T) :=
  match perm with
  | none => .ok (.unwound .closure, s)
  | some perm => do
    let s ← s.sortWith perm
    .ok (.returned (), s)

/-- `src/sparse_set/mod.rs:591-622` `private_apply`: the closure leaves a first component behind and
returns (`some`) or panics (`none`); the timestamp is set before it runs. -/
def applyU {R : Type} (s : SparseSet T) (a b : EId) (f : T → T → T × Option R) (current : Nat) :
    Res (Out R × SparseSet T) := do
  match ← s.indexOf a with
  | none => .ok (.unwound .refused, s)
  | some i => match ← s.indexOf b with
    | none => .ok (.unwound .refused, s)
    | some j =>
      if i ≠ j then do
        let m ← setCIf s.trkMod s.modificationData i current
        let x ← vecGetU s.data i
        let y ← vecGetU s.data j
        let (x', r) := f x y
        let data ← vecSetU s.data i x'
        let s := { s with data := data, modificationData := m }
        match r with
        | some r => .ok (.returned r, s)
        | none => .ok (.unwound .closure, s)
      else .ok (.unwound .refused, s)

/-- `src/sparse_set/mod.rs:633-666` `private_apply_mut`. -/
def applyMutU {R : Type} (s : SparseSet T) (a b : EId) (f : T → T → T × T × Option R) (current : Nat) :
    Res (Out R × SparseSet T) := do
  match ← s.indexOf a with
  | none => .ok (.unwound .refused, s)
  | some i => match ← s.indexOf b with
    | none => .ok (.unwound .refused, s)
    | some j =>
      if i ≠ j then do
        let m ← setCIf s.trkMod s.modificationData i current
        let m ← setCIf s.trkMod m j current
        let x ← vecGetU s.data i
        let y ← vecGetU s.data j
        let (x', y', r) := f x y
        let data ← vecSetU s.data i x'
        let data ← vecSetU data j y'
        let s := { s with data := data, modificationData := m }
        match r with
        | some r => .ok (.returned r, s)
        | none => .ok (.unwound .closure, s)
      else .ok (.unwound .refused, s)

/-- `src/sparse_set/mod.rs:669-690` `private_clear`: without deletion tracking the components are dropped
by the `Drain` at the end; it drops all of them and leaves the vector empty even if one destructor
panics. -/
def clearU (s : SparseSet T) (current : Nat) (dtorPanics : Bool) : Res (Out Unit × SparseSet T) := do
  let sp ← killAll s.sparse s.dense
  let s' := { s with
    sparse := sp
    insertionData := []
    modificationData := []
    dense := []
    data := []
    deletionData := if s.trkDel then
        s.deletionData ++ (s.dense.zip s.data).map fun x => (x.1, current, x.2)
      else s.deletionData }
  if s.trkDel then .ok (.returned (), s')
  else if dtorPanics then .ok (.unwound .dtor, s')
  else .ok (.returned (), s')

/-- The loop of `private_retain_mut` (`src/sparse_set/mod.rs:748-762`). -/
def retainMutLoopU {σ : Type} (f : σ → EId → T → Option T × Verdict × σ) (current : Nat)
    (s : SparseSet T) (st : σ) (pos : Nat) : Nat → Res (Out Unit × σ × SparseSet T)
  | 0 => .ok (.returned (), st, s)
  | n + 1 => do
    let e ← vecGetU s.dense pos
    let c ← vecGetU s.data pos
    let (w, verdict, st) := f st e c
    let s ← writeOpt s pos current w
    match verdict with
    | .panic => .ok (.unwound .closure, st, s)
    | .keep => retainMutLoopU f current s st (pos + 1) n
    | .drop hookPanics dtorPanics => do
      match ← s.dynDeleteU e current hookPanics dtorPanics with
      | (.unwound w, s) => .ok (.unwound w, st, s)
      | (.returned _, s) => retainMutLoopU f current s st pos n

/-- `src/sparse_set/mod.rs:742-763` `private_retain_mut`. -/
def retainMutU {σ : Type} (s : SparseSet T) (current : Nat) (st : σ)
    (f : σ → EId → T → Option T × Verdict × σ) : Res (Out Unit × σ × SparseSet T) :=
  retainMutLoopU f current s st 0 s.dense.length

/-- The loop of `private_retain` (`src/sparse_set/mod.rs:728-739`). -/
def retainLoopU {σ : Type} (f : σ → EId → T → Verdict × σ) (current : Nat)
    (s : SparseSet T) (st : σ) (pos : Nat) : Nat → Res (Out Unit × σ × SparseSet T)
  | 0 => .ok (.returned (), st, s)
  | n + 1 => do
    let e ← vecGetU s.dense pos
    let c ← vecGetU s.data pos
    let (verdict, st) := f st e c
    match verdict with
    | .panic => .ok (.unwound .closure, st, s)
    | .keep => retainLoopU f current s st (pos + 1) n
    | .drop hookPanics dtorPanics => do
      match ← s.dynDeleteU e current hookPanics dtorPanics with
      | (.unwound w, s) => .ok (.unwound w, st, s)
      | (.returned _, s) => retainLoopU f current s st pos n

/-- `src/sparse_set/mod.rs:723-740` `private_retain`. -/
def retainU {σ : Type} (s : SparseSet T) (current : Nat) (st : σ) (f : σ → EId → T → Verdict × σ) :
    Res (Out Unit × σ × SparseSet T) := retainLoopU f current s st 0 s.dense.length

/-- `bulk_insert` whose iterator yields `comps` and then panics (`src/sparse_set/bulk_add_entity.rs:75`):
`data.extend(iter)` keeps what was yielded, and nothing after it runs. -/
def bulkInsertU (s : SparseSet T) (comps : List T) : SparseSet T := { s with data := s.data ++ comps }

end SparseSet
end Verif

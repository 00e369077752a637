import Verif.Model.Borrow

/-!
# Borrowing views

Models the `Borrow` and `WorldBorrow` traits: `src/borrow/mod.rs`, `src/borrow/world_borrow.rs`,
`src/all_storages/custom_storage.rs:205-357`, `src/all_storages/mod.rs:1071-1099`, and the way `World::borrow`
(`src/world.rs:396-400`), `AllStorages::borrow` (`src/all_storages/mod.rs:807-811`) and systems
(`src/scheduler/into_workload_system.rs:151-155`) use them. One thread runs; the content of the views is not modelled. The locks
around the map of storages are not modelled.
-/
namespace Verif.Borrow

/-- The cells of a world. Cell 0 is the `AtomicRefCell` around `AllStorages` (`src/world.rs:38`), the others are those of the storages.
`owner` and `isSync` are the `send` and `is_sync` fields of `AtomicRefCell` (`src/advanced/atomic_refcell.rs:17-27`). -/
structure Cells where
  cell : Nat → Cell
  present : Nat → Bool
  owner : Nat → Option Nat
  isSync : Nat → Bool
  me : Nat

/-- The cell around `AllStorages`. -/
def allCell : Nat := 0
/-- The storage of entities. It is made with the world (`src/all_storages/mod.rs:66-74`). -/
def entities : Nat := 1

def Cells.set (st : Cells) (s : Nat) (c : Cell) : Cells := { st with cell := fun k => if k = s then c else st.cell k }

/-- One step on cell `s`: `true` when it gave (or dropped) a guard, `false` on an error. Overflow paths panic or abort. Dropping a
guard that does not exist would be `oob`. -/
def Cells.act (st : Cells) (s : Nat) (e : Ev) : Res (Cells × Bool) :=
  match (st.cell s).step e with
  | none => .error .oob
  | some (c, .guard) => .ok (st.set s c, true)
  | some (c, .error) => .ok (st.set s c, false)
  | some (_, .undo) => .error .panic
  | some (_, .abort) => .error .panic

/-- A view that is asked for. -/
inductive Req where
  /-- `()` and `Nothing`, `src/borrow/mod.rs:95-123` -/
  | unit
  /-- a view of the storage `s`. `EntitiesView(Mut)`: 125-167. `View(Mut)` and the `NonSend`, `NonSync`, `NonSendSync` versions:
  169-403, with `create` set; `trackOk` is the result of `check_tracking`. `UniqueView(Mut)`: 405-645, without `create`. -/
  | view (s : Nat) (exclusive create trackOk : Bool)
  /-- `Option<T>`, 647-659 -/
  | opt (r : Req)
  /-- tuples, 661-677 -/
  | tuple (rs : List Req)

/-- A view that is held. `all` is set when it holds a `SharedBorrow` of cell 0 too. -/
inductive View where
  | unit
  | view (s : Nat) (exclusive all : Bool)
  | opt (v : Option View)
  | tuple (vs : List View)

/-- Dropping the `Option<SharedBorrow>` of cell 0. -/
def Cells.dropAll (st : Cells) (all : Bool) : Res Cells :=
  if all then (st.act allCell .dropShared).map (·.1) else .ok st

/-- Dropping the guard of a storage. -/
def Cells.dropGuard (st : Cells) (s : Nat) (exclusive : Bool) : Res Cells :=
  (st.act s (if exclusive then .dropExclusive else .dropShared)).map (·.1)

mutual
/-- Dropping a view drops its guards. -/
def Cells.dropView (st : Cells) : View → Res Cells
  | .unit => .ok st
  | .view s exclusive all => (st.dropAll all).bind fun st => st.dropGuard s exclusive
  | .opt none => .ok st
  | .opt (some v) => st.dropView v
  | .tuple vs => st.dropViews vs
/-- Dropping several views. -/
def Cells.dropViews (st : Cells) : List View → Res Cells
  | [] => .ok st
  | v :: vs => (st.dropView v).bind fun st => st.dropViews vs
end

/-- The guard of the storage: `AtomicRefCell::borrow` or `borrow_mut` after looking the storage up
(`custom_storage.rs:205-357`, `all_storages/mod.rs:1071-1099`). `none` inside is `WrongThread`. -/
def Cells.guard (st : Cells) (s : Nat) (exclusive : Bool) : Res (Cells × Bool) :=
  match if exclusive then borrowMutEv (st.owner s) st.me else borrowEv (st.owner s) (st.isSync s) st.me with
  | none => .ok (st, false)
  | some e => st.act s e

/-- Makes the storage when it is missing: `or_insert_with`, `custom_storage.rs:341-346`. -/
def Cells.create (st : Cells) (s : Nat) : Cells :=
  if st.present s then st
  else { st with present := fun k => k = s || st.present k, cell := fun k => if k = s then Cell.new else st.cell k }

/-- `Borrow for View`, `ViewMut`, `EntitiesView(Mut)`, `UniqueView(Mut)`, `src/borrow/mod.rs:125-645`. The result is `none` for an
error. -/
def Cells.borrowView (st : Cells) (s : Nat) (exclusive create trackOk all : Bool) : Res (Cells × Option View) :=
  let st := if create then st.create s else st
  if st.present s = false then (st.dropAll all).map (·, none)
  else
    (st.guard s exclusive).bind fun (st, got) =>
    if got = false then (st.dropAll all).map (·, none)
    else if trackOk = false then
      (st.dropGuard s exclusive).bind fun st => (st.dropAll all).map (·, none)
    else .ok (st, some (.view s exclusive all))

/-- `Option::clone` of the `SharedBorrow` of cell 0. -/
def Cells.cloneAll (st : Cells) (all : Bool) : Res Cells :=
  if all then (st.act allCell .clone).map (·.1) else .ok st

mutual
/-- `Borrow::borrow`, `src/borrow/mod.rs:86-92`. `all`: the caller gave a `SharedBorrow` of cell 0. -/
def Cells.borrow (st : Cells) (all : Bool) : Req → Res (Cells × Option View)
  | .unit => (st.dropAll all).map (·, some .unit)
  | .view s exclusive create trackOk => st.borrowView s exclusive create trackOk all
  | .opt r => (st.borrow all r).map fun (st, v) => (st, some (.opt v))
  | .tuple rs =>
    (st.borrowEach all rs).bind fun (st, vs) =>
    (st.dropAll all).map (·, vs.map .tuple)
/-- The elements of a tuple one after the other, `src/borrow/mod.rs:672`: at the first error the views made so far are dropped. -/
def Cells.borrowEach (st : Cells) (all : Bool) : List Req → Res (Cells × Option (List View))
  | [] => .ok (st, some [])
  | r :: rs =>
    (st.cloneAll all).bind fun st =>
    (st.borrow all r).bind fun (st, v) =>
    match v with
    | none => .ok (st, none)
    | some v =>
      (st.borrowEach all rs).bind fun (st, vs) =>
      match vs with
      | none => (st.dropView v).map (·, none)
      | some vs => .ok (st, some (v :: vs))
end

/-- What `World::borrow` and the parameters of a system can ask for. -/
inductive WReq where
  /-- `impl<T: Borrow> WorldBorrow for T`, `src/borrow/world_borrow.rs:21-40` -/
  | views (r : Req)
  /-- `AllStoragesView` and `AllStoragesViewMut`, 42-73 -/
  | allStorages (exclusive : Bool)

/-- `WorldBorrow::world_borrow`. -/
def Cells.worldBorrow (st : Cells) : WReq → Res (Cells × Option View)
  | .views r =>
    (st.guard allCell false).bind fun (st, got) =>
    if got = false then .ok (st, none) else st.borrow true r
  | .allStorages exclusive =>
    (st.guard allCell exclusive).map fun (st, got) => (st, if got then some (.view allCell exclusive false) else none)

/-- The parameters of a system, `src/scheduler/into_workload_system.rs:154`: at the first error the views made so far are
dropped. -/
def Cells.params (st : Cells) : List WReq → Res (Cells × Option (List View))
  | [] => .ok (st, some [])
  | r :: rs =>
    (st.worldBorrow r).bind fun (st, v) =>
    match v with
    | none => .ok (st, none)
    | some v =>
      (st.params rs).bind fun (st, vs) =>
      match vs with
      | none => (st.dropView v).map (·, none)
      | some vs => .ok (st, some (v :: vs))

end Verif.Borrow

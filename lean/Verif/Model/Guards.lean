import Verif.Model.Borrow

/-!
# What keeps storages borrowed

Views, `Ref`s and iterators keep two borrows: one of the storage, one of `AllStorages`. The second is what stops
someone from getting `&mut AllStorages` meanwhile, and from destroying the storages.

Models the acquisition (`src/borrow/world_borrow.rs:21-73`, `src/borrow/mod.rs:86-677`,
`src/world.rs:1378-1394`, `src/all_storages/mod.rs:807-811`, `1337-1343`) and the destruction (order of the
fields) of these types. Each atomic operation on a borrow state is one step, the steps of any number of threads
interleave in any order.

Simplifications: storages are never missing and bound to no thread (`Threads.lean` is about threads); views are
neither cloned nor reborrowed; what the views are used for is not modelled.
-/
namespace Verif.Guards
open Borrow (Cell Ev Got)

/-- The types holding borrows. -/
inductive Kind where
  /-- `AllStoragesView`, `AllStoragesViewMut`: `src/views/all_storages.rs:6,32` -/
  | all
  /-- `View`, `ViewMut`: `src/views/view.rs:19-28`, `src/views/view_mut.rs:21-30` -/
  | view
  /-- `EntitiesView`, `EntitiesViewMut`: `src/views/entities.rs:6-10,33-37` -/
  | entities
  /-- `UniqueView`, `UniqueViewMut`: `src/views/unique_view.rs:9-16`, `src/views/unique_view_mut.rs:9-16` -/
  | unique
  /-- `Ref`, `RefMut`: `src/advanced/get_component.rs:15-19,52-58` -/
  | ref
  /-- `IntoIterRef`, of one component: `src/iter_component/iter_ref.rs:8-16` -/
  | iter
  deriving DecidableEq, Repr

/-- Fields are dropped in the order of their declaration. Is the borrow of `AllStorages` declared before the one
of the storage? -/
def Kind.allFirst : Kind → Bool
  | .all => false
  | .view => true
  | .entities => false
  | .unique => false
  | .ref => true
  | .iter => true

/-- A value of one of these types. `own`: it holds a borrow of cell `storage`; 0 is the cell around
`AllStorages`, the others are those of the storages. `all`: it holds a `SharedBorrow` of cell 0 besides.
`live`: its destructor has not started. `parent`: the `AllStoragesView(Mut)` it was borrowed from, if it was made by
`AllStorages::borrow`. `born`: which storages it was borrowed from, see `St.epoch`. -/
structure Token where
  kind : Kind
  storage : Nat
  exclusive : Bool
  all : Bool
  own : Bool
  live : Bool
  parent : Option Nat
  born : Nat
  deriving DecidableEq, Repr

/-- Something of the value remains. -/
def Token.there (t : Token) : Bool := t.live || t.own || t.all

/-- The cells of the storages the world has, and the values made so far. `epoch` counts how often all storages of
the world were replaced; the cells of former ones are freed memory. `loose`: references to components of a
storage that nothing guards, made by `copyOut`: the storage, whether it is exclusive, the epoch. -/
structure St where
  cell : Nat → Cell
  toks : List Token
  loose : List (Nat × Bool × Nat)
  epoch : Nat

/-- A world nobody uses. -/
def St.new : St := { cell := fun _ => Cell.new, toks := [], loose := [], epoch := 0 }

def St.setCell (st : St) (s : Nat) (c : Cell) : St := { st with cell := fun k => if k = s then c else st.cell k }

def St.setTok (st : St) (i : Nat) (t : Token) : St := { st with toks := st.toks.set i t }

def St.push (st : St) (t : Token) : St := { st with toks := st.toks ++ [t] }

/-- One atomic operation on cell `s`: `true` when it gave (or gave back) a borrow. A guard that does not exist
cannot be given back: `oob`. -/
def St.act (st : St) (s : Nat) (e : Ev) : Res (St × Bool) :=
  match (st.cell s).step e with
  | none => .error .oob
  | some (c, .guard) => .ok (st.setCell s c, true)
  | some (c, .error) => .ok (st.setCell s c, false)
  | some (_, .undo) => .error .panic
  | some (_, .abort) => .error .panic

/-- One step of a thread. -/
inductive Act where
  /-- The first step of `World::borrow`, `World::get`, `World::iter`: borrowing `AllStorages`. -/
  | open (kind : Kind) (s : Nat) (exclusive : Bool)
  /-- Borrowing `AllStoragesView` or `AllStoragesViewMut`. -/
  | openAll (exclusive : Bool)
  /-- `AllStorages::borrow` and the like through the `AllStoragesView(Mut)` number `i`. -/
  | openChild (i : Nat) (kind : Kind) (s : Nat) (exclusive : Bool)
  /-- Borrowing the storage. -/
  | take (i : Nat)
  /-- The next step of the destructor. -/
  | release (i : Nat)
  /-- The whole destructor, nobody else running meanwhile. -/
  | drop (i : Nat)
  /-- `core::mem::swap` of the `AllStorages` of an `AllStoragesViewMut` with the one of another world, which is
  dropped afterwards. -/
  | destroy (i : Nat)
  /-- `*world.get::<&T>(e)?` copies a `&'a T` out of the `Ref`; `RefMut::map`, or `core::mem::swap` on what its
  `DerefMut` gives, moves the `&'a mut T` out of the `RefMut`. `'a` is the lifetime of the borrow of the world. -/
  | copyOut (i : Nat)
  deriving DecidableEq, Repr

/-- Is something borrowed from number `i` still there? -/
def St.hasChild (st : St) (i : Nat) : Bool := st.toks.any fun t => t.parent == some i && t.there

/-- Giving back the borrow of the storage. The memory of the cell is gone when the storages were replaced. -/
def St.giveBack (st : St) (i : Nat) (t : Token) : Res St :=
  if t.storage ≠ 0 ∧ t.born ≠ st.epoch then .error .oob
  else do
    let (st, _) ← st.act t.storage (if t.exclusive then .dropExclusive else .dropShared)
    .ok (st.setTok i { t with own := false, live := false })

/-- Giving back the borrow of `AllStorages`. -/
def St.giveBackAll (st : St) (i : Nat) (t : Token) : Res St := do
  let (st, _) ← st.act 0 .dropShared
  .ok (st.setTok i { t with all := false, live := false })

/-- The next step of a destructor. -/
def St.releaseStep (st : St) (i : Nat) (t : Token) : Res St :=
  if t.all && (t.kind.allFirst || !t.own) then st.giveBackAll i t
  else if t.own then st.giveBack i t
  else .ok (st.setTok i { t with live := false })

/-- The remaining destructor: at most two steps. -/
def St.dropSteps (st : St) (i : Nat) (t : Token) : Res St := do
  let st ← st.releaseStep i t
  match st.toks[i]? with
  | none => .ok st
  | some t => st.releaseStep i t

/-- One step; `none` when the program cannot do it: there is no such value, its type or its lifetime does not allow it. -/
def St.step (st : St) : Act → Option (Res St)
  | .open kind s x =>
    if s = 0 ∨ kind = .all then none
    else some (do
      let (st, got) ← st.act 0 .read
      .ok (if got then st.push ⟨kind, s, x, true, false, true, none, st.epoch⟩ else st))
  | .openAll x =>
    some (do
      let (st, got) ← st.act 0 (if x then .write else .read)
      .ok (if got then st.push ⟨.all, 0, x, false, true, true, none, st.epoch⟩ else st))
  | .openChild i kind s x =>
    match st.toks[i]? with
    | none => none
    | some t =>
      if s = 0 ∨ kind = .all ∨ t.kind ≠ .all ∨ t.live = false ∨ t.own = false then none
      else some (.ok (st.push ⟨kind, s, x, false, false, true, some i, st.epoch⟩))
  | .take i =>
    match st.toks[i]? with
    | none => none
    | some t =>
      if t.live = false ∨ t.own = true then none
      else some (do
        let (st, got) ← st.act t.storage (if t.exclusive then .write else .read)
        .ok (if got then st.setTok i { t with own := true, born := st.epoch } else st))
  | .release i =>
    match st.toks[i]? with
    | none => none
    | some t => if t.there = false ∨ st.hasChild i = true then none else some (st.releaseStep i t)
  | .drop i =>
    match st.toks[i]? with
    | none => none
    | some t => if t.there = false ∨ st.hasChild i = true then none else some (st.dropSteps i t)
  | .destroy i =>
    match st.toks[i]? with
    | none => none
    | some t =>
      if t.kind ≠ .all ∨ t.exclusive = false ∨ t.live = false ∨ t.own = false ∨ st.hasChild i = true then none
      else some (.ok { st with cell := fun s => if s = 0 then st.cell 0 else Cell.new, epoch := st.epoch + 1 })
  | .copyOut i =>
    match st.toks[i]? with
    | none => none
    | some t =>
      if t.kind ≠ .ref ∨ t.live = false ∨ t.own = false ∨ t.all = false then none
      else some (.ok { st with loose := st.loose ++ [(t.storage, t.exclusive, t.born)] })

end Verif.Guards

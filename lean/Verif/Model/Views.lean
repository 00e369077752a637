import Verif.Model.World

/-!
# Calls on views and on tuples of views

Models `src/add_component.rs`, `src/add_distinct_component.rs`, `src/add_entity.rs`, `src/contains.rs`,
`src/delete.rs`, `src/remove.rs`, `src/get.rs`, the `get_or_*` and indexing part of `src/views/view_mut.rs`
and `add_component`, `add_distinct_component`, `add_entity` of `src/entities/mod.rs`.

Simplifications:
* a tuple of views is the list of the storages they borrow, in order; nested tuples are flattened, which is
  the order in which the macros visit them;
* the storages live in the world (`lookupK w.stos k`); a view of a storage that does not exist cannot be
  had, the model answers `Fault.oob`. Exclusive views of one storage cannot coexist, so the theorems ask
  for distinct storages;
* `now k` is the timestamp the view of storage `k` was given when it was borrowed (`ViewMut::current`);
* the implementations for `View`, `&View`, `ViewMut`, `&ViewMut` and `&mut ViewMut` are copies of each other.
-/
namespace Verif.World
variable {V : Type} (now : Nat → Nat)

/-- `self.sparse_set.insert(entity, component, self.current)` through a view. -/
def vInsert (e : EId) (k : Nat) (v : V) (w : World V) : Res (InsertionResult V × World V) :=
  match lookupK w.stos k with
  | none => .error .oob
  | some s => do
    let (r, s') ← s.insert e v (now k)
    .ok (r, w.put k s')

/-- `src/add_component.rs:27-85` `add_component_unchecked`: in order; an `Option<T>` holding nothing is
skipped; the `InsertionResult` is dropped. -/
def vAddUnchecked (e : EId) : List (Nat × Option V) → World V → Res (World V)
  | [], w => .ok w
  | (_, none) :: cs, w => vAddUnchecked e cs w
  | (k, some v) :: cs, w => do
    let (_, w') ← vInsert now e k v w
    vAddUnchecked e cs w'

/-- `src/entities/mod.rs:86-97` `Entities::add_component`. -/
def vAddComponent (e : EId) (cs : List (Nat × Option V)) (w : World V) : Res (Ended × World V) :=
  if w.ents.isAlive e then do
    let w' ← vAddUnchecked now e cs w
    .ok (.returned, w')
  else .ok (.panicked, w)

/-- `src/add_distinct_component.rs:49-91` `add_distinct_component_unchecked` of one view. -/
def vAddDistinctOne [DecidableEq V] (e : EId) (k : Nat) (v : V) (w : World V) : Res (Bool × World V) :=
  match lookupK w.stos k with
  | none => .error .oob
  | some s => do
    let c ← s.get e
    if c = some v then .ok (false, w)
    else do
      let (r, s') ← s.insert e v (now k)
      .ok (r.wasInserted, w.put k s')

/-- `src/add_distinct_component.rs:40-47`, `93-106`: the calls of a tuple are joined by `||`. -/
def vAddDistinct [DecidableEq V] (e : EId) : List (Nat × V) → World V → Res (Bool × World V)
  | [], w => .ok (false, w)
  | (k, v) :: cs, w => do
    let (b, w') ← vAddDistinctOne now e k v w
    if b then .ok (true, w') else vAddDistinct e cs w'

/-- `src/entities/mod.rs:126-138` `Entities::add_distinct_component`. `none` is the panic. -/
def vAddDistinctComponent [DecidableEq V] (e : EId) (cs : List (Nat × V)) (w : World V) :
    Res (Option Bool × World V) :=
  if w.ents.isAlive e then do
    let (b, w') ← vAddDistinct now e cs w
    .ok (some b, w')
  else .ok (none, w)

/-- `src/add_entity.rs:21-55`: in order, the `InsertionResult` is dropped. -/
def vAddEntityAll (e : EId) : List (Nat × V) → World V → Res (World V)
  | [], w => .ok w
  | (k, v) :: cs, w => do
    let (_, w') ← vInsert now e k v w
    vAddEntityAll e cs w'

/-- `src/entities/mod.rs:236-244` `Entities::add_entity`. -/
def vAddEntity (cs : List (Nat × V)) (w : World V) : Res (EId × World V) := do
  let (e, ents) ← w.ents.generate
  let w' ← vAddEntityAll now e cs { w with ents := ents }
  .ok (e, w')

/-- `src/contains.rs:13-39`: the calls of a tuple are joined by `&&`. -/
def vContains (e : EId) : List Nat → World V → Res Bool
  | [], _ => .ok true
  | k :: ks, w =>
    match lookupK w.stos k with
    | none => .error .oob
    | some s => do
      let b ← s.contains e
      if b then vContains e ks w else .ok false

/-- `src/delete.rs:31-65`: the calls of a tuple are joined by `|`, so that all of them are made. -/
def vDelete (e : EId) : List Nat → World V → Res (Bool × World V)
  | [], w => .ok (false, w)
  | k :: ks, w =>
    match lookupK w.stos k with
    | none => .error .oob
    | some s => do
      let (b, s') ← s.dynDelete e (now k)
      let (b', w') ← vDelete e ks (w.put k s')
      .ok (b || b', w')

/-- `src/remove.rs:34-73`. -/
def vRemove (e : EId) : List Nat → World V → Res (List (Option V) × World V)
  | [], w => .ok ([], w)
  | k :: ks, w =>
    match lookupK w.stos k with
    | none => .error .oob
    | some s => do
      let (r, s') ← s.dynRemove e (now k)
      let (rs, w') ← vRemove e ks (w.put k s')
      .ok (r :: rs, w')

/-- `src/get.rs:38-76`, `106-115` `get` of shared accesses; `Except.error k` is the `MissingComponent`
error naming the component type of storage `k`. -/
def vGet (e : EId) : List Nat → World V → Res (Except Nat (List V))
  | [], _ => .ok (.ok [])
  | k :: ks, w =>
    match lookupK w.stos k with
    | none => .error .oob
    | some s => do
      match ← s.get e with
      | none => .ok (.error k)
      | some v => do
        match ← vGet e ks w with
        | .error j => .ok (.error j)
        | .ok vs => .ok (.ok (v :: vs))

/-- The accesses granted by `get` on exclusive views, one after the other (`src/get.rs:78-115`): the rows
are found first, no timestamp is written. -/
def vFindAll (e : EId) : List Nat → World V → Res (Except Nat Unit)
  | [], _ => .ok (.ok ())
  | k :: ks, w =>
    match lookupK w.stos k with
    | none => .error .oob
    | some s => do
      match ← s.indexOf e with
      | none => .ok (.error k)
      | some _ => vFindAll e ks w

/-- Writing through some of the `Mut`s granted (`src/mut.rs:34-43`): `none` is a `Mut` that is only read,
through `Deref`. -/
def vWriteAll (e : EId) : List (Nat × Option V) → World V → Res (World V)
  | [], w => .ok w
  | (_, none) :: cs, w => vWriteAll e cs w
  | (k, some v) :: cs, w =>
    match lookupK w.stos k with
    | none => .error .oob
    | some s => do
      let (_, s') ← s.modify e (now k) (fun _ => v)
      vWriteAll e cs (w.put k s')

/-- `(&mut a, &mut b, ..).get(e)` followed by writes through the `Mut`s: an error writes nothing. -/
def vGetMut (e : EId) (cs : List (Nat × Option V)) (w : World V) : Res (Except Nat Unit × World V) := do
  match ← vFindAll e (cs.map Prod.fst) w with
  | .error k => .ok (.error k, w)
  | .ok () => do
    let w' ← vWriteAll now e cs w
    .ok (.ok (), w')

/-- `src/views/view_mut.rs:285-306` `get_or_insert_with` (`get_or_insert`, `get_or_default`: `270-276`,
`250-255`): the component the returned `Mut` gives access to, `none` when nothing is returned. `f` is the
value of the closure. `unwrap_unchecked` of a missing component is `Fault.oob`. -/
def vGetOrInsert (e : EId) (k : Nat) (f : V) (w : World V) : Res (Option V × World V) :=
  match lookupK w.stos k with
  | none => .error .oob
  | some s => do
    let b ← s.contains e
    if b then
      match ← s.get e with
      | some v => .ok (some v, w)
      | none => .error .oob
    else do
      let (r, s') ← s.insert e f (now k)
      if r.wasInserted then
        match ← s'.get e with
        | some v => .ok (some v, w.put k s')
        | none => .error .oob
      else .ok (none, w.put k s')

/-- `src/views/view_mut.rs:631-637`, `src/views/view.rs:383-389` `view[e]`. -/
def vIndex (e : EId) (k : Nat) (w : World V) : Res V :=
  match lookupK w.stos k with
  | none => .error .oob
  | some s => do
    match ← s.get e with
    | some v => .ok v
    | none => .error .panic

/-- `src/views/view_mut.rs:639-666` `view[e] = v`: the modification is recorded when the place is
computed. -/
def vIndexMut (e : EId) (k : Nat) (v : V) (w : World V) : Res (World V) :=
  match lookupK w.stos k with
  | none => .error .oob
  | some s => do
    let (b, s') ← s.modify e (now k) (fun _ => v)
    if b then .ok (w.put k s') else .error .panic

end Verif.World

import Verif.Model.World

/-!
# Custom storages in the calls that move and clone entities

`add_custom_storage` puts a storage under any id, also a component storage under the id `StorageId::Custom(n)`
(`src/all_storages/custom_storage.rs:95-130`, `src/sparse_set/mod.rs:105-108`). Ids are `Nat` here, as in `World`;
`ty j` is the id `StorageId::of::<SparseSet<T>>()` of the ordinary storage of the type of the components kept
under `j`: it is `j` unless `j` is a custom id. Calls that go through all the storages take no notice of
ids, so those of `Model/World.lean` are right for custom storages too. The ones below are the exception:
`move_component_from` and `clone_component_to` insert under `ty j`.
-/
namespace Verif.World
variable {V : Type} (fl : Flags) (ty : Nat → Nat)

/-- The loop of `src/all_storages/mod.rs:1554-1562` and `1620-1628`, with `move_component_from`
(`src/sparse_set/mod.rs:817-833`, `src/sparse_set/thread_local.rs:47-63`, `148-164`, `249-266`). -/
def moveLoopC (src dst : EId) (now nowO : Nat) :
    List (Nat × SparseSet V) → World V → Res (List (Nat × SparseSet V) × World V)
  | [], o => .ok ([], o)
  | (j, s) :: l, o => do
    let (c, s') ← s.dynRemove src now
    let o' ← putOpt fl o (ty j) dst nowO c
    let (l', o'') ← moveLoopC src dst now nowO l o'
    .ok ((j, s') :: l', o'')

/-- `src/all_storages/mod.rs:1529-1564` `move_entity`. -/
def moveEntityC (w o : World V) (e : EId) : Res (Ended × World V × World V) := do
  let (b, ents) ← w.ents.deleteUnchecked e
  if b then do
    let (b', entsO) ← o.ents.spawn e
    if b' then do
      let (stos, o') ← moveLoopC fl ty e e w.counter o.counter w.stos { o.tick with ents := entsO }
      .ok (.returned, { w.tick with ents := ents, stos := stos }, o')
    else .ok (.panicked, { w.tick with ents := ents }, { o.tick with ents := entsO })
  else .ok (.panicked, { w.tick with ents := ents }, o.tick)

/-- `src/all_storages/mod.rs:1592-1630` `move_components`. -/
def moveComponentsC (w o : World V) (src dst : EId) : Res (Ended × World V × World V) :=
  if w.ents.isAlive src then
    if o.ents.isAlive dst then do
      let (stos, o') ← moveLoopC fl ty src dst w.counter o.counter w.stos o.tick
      .ok (.returned, { w.tick with stos := stos }, o')
    else .ok (.panicked, w.tick, o.tick)
  else .ok (.panicked, w.tick, o.tick)

/-- The loop of `clone_entity_to` and `clone_components_to` with `clone_component_to`
(`src/sparse_set/mod.rs:858-876`, `src/sparse_set/thread_local.rs:92-109`, `193-210`, `296-314`). The clone
function is the one of the type. -/
def cloneCompLoopC (cl : Nat → V → V) (src dst : EId) (nowO : Nat) :
    List (Nat × SparseSet V) → World V → Res (World V)
  | [], o => .ok o
  | (j, s) :: l, o => do
    let c ← cloneOf cl src (ty j) s
    let o' ← putOpt fl o (ty j) dst nowO c
    cloneCompLoopC cl src dst nowO l o'

/-- `src/all_storages/mod.rs:1739-1772` `clone_components_to`. Returns the other world. -/
def cloneComponentsToC (cl : Nat → V → V) (w o : World V) (src dst : EId) : Res (Ended × World V) :=
  if w.ents.isAlive src then
    if o.ents.isAlive dst then do
      let o' ← cloneCompLoopC fl ty cl src dst o.counter w.stos o.tick
      .ok (.returned, o')
    else .ok (.panicked, o.tick)
  else .ok (.panicked, o.tick)

/-- `src/all_storages/mod.rs:1709-1734` `clone_entity_to`. Returns the other world. -/
def cloneEntityToC (cl : Nat → V → V) (w o : World V) (e : EId) : Res (Ended × World V) :=
  if w.ents.isAlive e then do
    let (b, entsO) ← o.ents.spawn e
    if b then do
      let o' ← cloneCompLoopC fl ty cl e e o.counter w.stos { o.tick with ents := entsO }
      .ok (.returned, o')
    else .ok (.panicked, { o.tick with ents := entsO })
  else .ok (.panicked, o.tick)

end Verif.World

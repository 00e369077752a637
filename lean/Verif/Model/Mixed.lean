import Verif.Model.World
import Verif.Model.Tracking

/-!
# All storages in one map

`AllStorages::storages` holds the entities, the storages of components, the uniques and the storages a user made by implementing
`Storage`, in the order the hash map has them. `Model/World.lean` keeps the entities and the component storages only; here the loops
over all storages are modelled as they are written, each storage answering with its own implementation of the trait `Storage`
(`src/storage/mod.rs:34-122`) or with the default of the trait, which does nothing.

Simplified: a user's storage does not override `move_component_from`; the other world of a move is given by its entities and
components.
-/
namespace Verif.Mix
open Tracking (UniqueStorage)
variable {V U X : Type}

/-- What a user's `impl Storage` does. -/
structure User (X : Type) where
  delete : EId → Nat → X → X
  clear : Nat → X → X
  clearInserted : Nat → X → X
  clearModified : Nat → X → X
  clearLogs : X → X
  clearLogsOlder : Nat → X → X

/-- One entry of the map. -/
inductive Sto (V U X : Type) where
  | entities (E : Entities)
  | component (s : SparseSet V)
  | unique (u : UniqueStorage U)
  | user (x : X)

/-- `Storage::delete`: `src/sparse_set/mod.rs:783-785`; the default (`src/storage/mod.rs:46-48`) for the entities
(`src/entities/mod.rs:391-437`) and uniques (`src/unique.rs:21-55`). -/
def Sto.delete (um : User X) (e : EId) (now : Nat) : Sto V U X → Res (Sto V U X)
  | .component s => do
    let s' ← World.stoDelete e now s
    .ok (.component s')
  | .user x => .ok (.user (um.delete e now x))
  | .unique u => .ok (.unique u)
  | .entities E => .ok (.entities E)

/-- `Storage::clear`: `src/sparse_set/mod.rs:787-789`, `src/entities/mod.rs:392-437`; the default (`src/storage/mod.rs:50-52`) for
uniques. -/
def Sto.clear (um : User X) (now : Nat) : Sto V U X → Res (Sto V U X)
  | .component s => do
    let s' ← s.clear now
    .ok (.component s')
  | .entities E => do
    let E' ← E.clear
    .ok (.entities E')
  | .user x => .ok (.user (um.clear now x))
  | .unique u => .ok (.unique u)

/-- `Storage::clear_all_inserted`: `src/sparse_set/mod.rs:799-801`, `src/unique.rs:35-37`; the default for the entities. -/
def Sto.clearAllInserted (um : User X) (now : Nat) : Sto V U X → Sto V U X
  | .component s => .component (s.clearAllInserted now)
  | .unique u => .unique (u.clearAllInserted now)
  | .user x => .user (um.clearInserted now x)
  | .entities E => .entities E

/-- `Storage::clear_all_modified`: `src/sparse_set/mod.rs:802-804`, `src/unique.rs:39-41`; the default for the entities. -/
def Sto.clearAllModified (um : User X) (now : Nat) : Sto V U X → Sto V U X
  | .component s => .component (s.clearAllModified now)
  | .unique u => .unique (u.clearAllModified now)
  | .user x => .user (um.clearModified now x)
  | .entities E => .entities E

/-- `Storage::clear_all_removed_and_deleted`: `src/sparse_set/mod.rs:805-808`; the default for the entities and uniques. -/
def Sto.clearLogs (um : User X) : Sto V U X → Sto V U X
  | .component s => .component s.storageClearAllRemovedAndDeleted
  | .user x => .user (um.clearLogs x)
  | .unique u => .unique u
  | .entities E => .entities E

/-- `Storage::clear_all_removed_and_deleted_older_than_timestamp`: `src/sparse_set/mod.rs:809-815`; the default for the entities and
uniques. -/
def Sto.clearLogsOlder (um : User X) (t : Nat) : Sto V U X → Sto V U X
  | .component s => .component (s.clearAllRemovedAndDeletedOlderThan t)
  | .user x => .user (um.clearLogsOlder t x)
  | .unique u => .unique u
  | .entities E => .entities E

/-- The map, in the order of its iteration, and the counter. -/
structure All (V U X : Type) where
  stos : List (Nat × Sto V U X)
  counter : Nat

/-- `for (id, storage) in storages`. -/
def loop (f : Nat → Sto V U X → Res (Sto V U X)) : List (Nat × Sto V U X) → Res (List (Nat × Sto V U X))
  | [] => .ok []
  | (k, s) :: l => do
    let s' ← f k s
    let l' ← loop f l
    .ok ((k, s') :: l')

/-- A call on the entities: `self.entities_mut().unwrap()` or `self.exclusive_storage_mut::<Entities>().unwrap()`. -/
def onEntities {R : Type} (g : Entities → Res (R × Entities)) : List (Nat × Sto V U X) → Res (R × List (Nat × Sto V U X))
  | [] => .error .panic
  | (k, .entities E) :: l => do
    let (r, E') ← g E
    .ok (r, (k, .entities E') :: l)
  | x :: l => do
    let (r, l') ← onEntities g l
    .ok (r, x :: l')

namespace All
variable (um : User X)

/-- `src/all_storages/mod.rs:295-301` `strip`. -/
def strip (m : All V U X) (e : EId) : Res (All V U X) := do
  let stos ← loop (fun _ => Sto.delete um e m.counter) m.stos
  .ok ⟨stos, m.counter + 1⟩

/-- The inner loop of `bulk_strip`. -/
def deleteEach (now : Nat) : List EId → Sto V U X → Res (Sto V U X)
  | [], s => .ok s
  | e :: es, s => do
    let s' ← s.delete um e now
    deleteEach now es s'

/-- `src/all_storages/mod.rs:330-353` `bulk_strip`. -/
def bulkStrip (m : All V U X) (es : List EId) : Res (All V U X) := do
  let stos ← loop (fun _ => deleteEach um m.counter es) m.stos
  .ok ⟨stos, m.counter + 1⟩

/-- `src/all_storages/mod.rs:443-451` `retain_storage_by_id`. -/
def retainStorageById (m : All V U X) (e : EId) (keep : List Nat) : Res (All V U X) := do
  let stos ← loop (fun k s => if keep.contains k then .ok s else s.delete um e m.counter) m.stos
  .ok ⟨stos, m.counter + 1⟩

/-- `src/all_storages/mod.rs:260-273` `delete_entity`. -/
def deleteEntity (m : All V U X) (e : EId) : Res (Bool × All V U X) := do
  let (b, stos) ← onEntities (fun E => E.deleteUnchecked e) m.stos
  if b then do
    let m' ← strip um { m with stos := stos } e
    .ok (true, m')
  else .ok (false, { m with stos := stos })

/-- `src/all_storages/mod.rs:465-471` `clear`. -/
def clear (m : All V U X) : Res (All V U X) := do
  let stos ← loop (fun _ => Sto.clear um m.counter) m.stos
  .ok ⟨stos, m.counter + 1⟩

/-- `src/all_storages/mod.rs:496-502` `clear_all_inserted`. -/
def clearAllInserted (m : All V U X) : All V U X :=
  { m with stos := m.stos.map fun x => (x.1, x.2.clearAllInserted um m.counter) }

/-- `src/all_storages/mod.rs:506-512` `clear_all_modified`. -/
def clearAllModified (m : All V U X) : All V U X :=
  { m with stos := m.stos.map fun x => (x.1, x.2.clearAllModified um m.counter) }

/-- `src/all_storages/mod.rs:516-523` `clear_all_inserted_and_modified`. -/
def clearAllInsertedAndModified (m : All V U X) : All V U X :=
  { m with stos := m.stos.map fun x => (x.1, (x.2.clearAllInserted um m.counter).clearAllModified um m.counter) }

/-- `src/all_storages/mod.rs:474-480` `clear_all_removed_and_deleted`. -/
def clearAllRemovedAndDeleted (m : All V U X) : All V U X :=
  { m with stos := m.stos.map fun x => (x.1, x.2.clearLogs um) }

/-- `src/all_storages/mod.rs:483-492` `clear_all_removed_and_deleted_older_than_timestamp`. -/
def clearAllRemovedAndDeletedOlderThan (m : All V U X) (t : Nat) : All V U X :=
  { m with stos := m.stos.map fun x => (x.1, x.2.clearLogsOlder um t) }

variable (fl : Flags)

/-- The loop of `move_entity` and `move_components`, with `Storage::move_component_from` (`src/sparse_set/mod.rs:817-833`; that of the
entities, `src/entities/mod.rs:449-459`, and the default, `src/storage/mod.rs:91-102`, do nothing). -/
def moveLoop (src dst : EId) (now nowO : Nat) : List (Nat × Sto V U X) → World V → Res (List (Nat × Sto V U X) × World V)
  | [], o => .ok ([], o)
  | (k, .component s) :: l, o => do
    let (c, s') ← s.dynRemove src now
    let o' ← World.putOpt fl o k dst nowO c
    let (l', o'') ← moveLoop src dst now nowO l o'
    .ok ((k, .component s') :: l', o'')
  | x :: l, o => do
    let (l', o'') ← moveLoop src dst now nowO l o
    .ok (x :: l', o'')

/-- `src/all_storages/mod.rs:1529-1564` `move_entity`. -/
def moveEntity (m : All V U X) (o : World V) (e : EId) : Res (Ended × All V U X × World V) := do
  let (b, stos) ← onEntities (fun E => E.deleteUnchecked e) m.stos
  if b then do
    let (b', entsO) ← o.ents.spawn e
    if b' then do
      let (stos', o') ← moveLoop fl e e m.counter o.counter stos { o.tick with ents := entsO }
      .ok (.returned, ⟨stos', m.counter + 1⟩, o')
    else .ok (.panicked, ⟨stos, m.counter + 1⟩, { o.tick with ents := entsO })
  else .ok (.panicked, ⟨stos, m.counter + 1⟩, o.tick)

/-- `src/all_storages/mod.rs:1592-1630` `move_components`. -/
def moveComponents (m : All V U X) (o : World V) (src dst : EId) : Res (Ended × All V U X × World V) := do
  let (b, stos) ← onEntities (fun E => .ok (E.isAlive src, E)) m.stos
  if b then
    if o.ents.isAlive dst then do
      let (stos', o') ← moveLoop fl src dst m.counter o.counter stos o.tick
      .ok (.returned, ⟨stos', m.counter + 1⟩, o')
    else .ok (.panicked, ⟨stos, m.counter + 1⟩, o.tick)
  else .ok (.panicked, ⟨stos, m.counter + 1⟩, o.tick)

end All
end Verif.Mix

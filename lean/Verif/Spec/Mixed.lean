import Verif.Model.Mixed

/-!
# What a map with all kinds of storages holds (C103)
-/
namespace Verif.Mix
open Tracking (UniqueStorage)
variable {V U X : Type}

/-- The component storages with their ids, in the order of the map. -/
def comps (l : List (Nat × Sto V U X)) : List (Nat × SparseSet V) :=
  l.filterMap fun x => match x.2 with | .component s => some (x.1, s) | _ => none

/-- The uniques with their ids. -/
def uniques (l : List (Nat × Sto V U X)) : List (Nat × UniqueStorage U) :=
  l.filterMap fun x => match x.2 with | .unique u => some (x.1, u) | _ => none

/-- The storages of the user. -/
def users (l : List (Nat × Sto V U X)) : List (Nat × X) :=
  l.filterMap fun x => match x.2 with | .user y => some (x.1, y) | _ => none

/-- The entities. -/
def ents (l : List (Nat × Sto V U X)) : List Entities :=
  l.filterMap fun x => match x.2 with | .entities E => some E | _ => none

/-- What an entry of the map is. -/
inductive Kind where
  | entities
  | component
  | unique
  | user
  deriving DecidableEq

/-- The kind of an entry. -/
def Sto.kind : Sto V U X → Kind
  | .entities _ => .entities
  | .component _ => .component
  | .unique _ => .unique
  | .user _ => .user

/-- Which ids are in the map, in its order, and what they are. -/
def shape (l : List (Nat × Sto V U X)) : List (Nat × Kind) := l.map fun x => (x.1, x.2.kind)

/-- The world `w` of the other theorems is what `m` holds of entities and components. -/
structure Shows (m : All V U X) (w : World V) : Prop where
  comps : Mix.comps m.stos = w.stos
  ents : Mix.ents m.stos = [w.ents]
  clock : m.counter = w.counter

/-- `m'` has the uniques of `m` changed by `q` and the user's storages changed by `z`; every storage stays where it is. -/
structure Beside (q : UniqueStorage U → UniqueStorage U) (z : Nat → X → X) (m m' : All V U X) : Prop where
  uniques : Mix.uniques m'.stos = (Mix.uniques m.stos).map fun x => (x.1, q x.2)
  users : Mix.users m'.stos = (Mix.users m.stos).map fun x => (x.1, z x.1 x.2)
  ids : shape m'.stos = shape m.stos

/-- A call on entities; none of them mentions a unique. -/
inductive Call where
  | strip (e : EId)
  | bulkStrip (es : List EId)
  | retainStorage (e : EId) (keep : List Nat)
  | deleteEntity (e : EId)
  | clear
  | clearLogs
  | clearLogsOlder (t : Nat)

/-- The call on the world of the other theorems. -/
def Call.onWorld (w : World V) : Call → Res (World V)
  | .strip e => w.strip e
  | .bulkStrip es => w.bulkStrip es
  | .retainStorage e keep => w.retainStorageById e keep
  | .deleteEntity e => (w.deleteEntity e).map Prod.snd
  | .clear => w.clear
  | .clearLogs => .ok w.clearAllRemovedAndDeleted
  | .clearLogsOlder t => .ok (w.clearAllRemovedAndDeletedOlderThan t)

/-- The call on the map with all kinds of storages. -/
def Call.onAll (um : User X) (m : All V U X) : Call → Res (All V U X)
  | .strip e => m.strip um e
  | .bulkStrip es => m.bulkStrip um es
  | .retainStorage e keep => m.retainStorageById um e keep
  | .deleteEntity e => (m.deleteEntity um e).map Prod.snd
  | .clear => m.clear um
  | .clearLogs => .ok (m.clearAllRemovedAndDeleted um)
  | .clearLogsOlder t => .ok (m.clearAllRemovedAndDeletedOlderThan um t)

end Verif.Mix

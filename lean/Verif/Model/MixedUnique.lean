import Verif.Model.Mixed

/-!
# `add_unique` and `remove_unique` in the map of all storages

Simplified: no view of the unique is borrowed (Model/StorageMap.lean has the borrows); entering an id puts it behind the others, where a
hash map may put it elsewhere and change the order of the others.
-/
namespace Verif.Mix
open Tracking (UniqueStorage)
variable {V U X : Type}

/-- `src/all_storages/mod.rs:110-120` `add_unique`: `entry(storage_id).insert(..)` replaces what is there. -/
def All.addUnique (m : All V U X) (k : Nat) (v : U) : All V U X :=
  { m with stos := setK m.stos k (.unique (UniqueStorage.new v m.counter)) }

/-- `src/all_storages/mod.rs:129-200` `add_unique_non_send`, `add_unique_non_sync` and `add_unique_non_send_sync`, on the thread of the
world: `or_insert_with` keeps what is there. -/
def All.addUniqueLocal (m : All V U X) (k : Nat) (v : U) : All V U X :=
  match lookupK m.stos k with
  | some _ => m
  | none => { m with stos := setK m.stos k (.unique (UniqueStorage.new v m.counter)) }

/-- `entry.remove()`. -/
def eraseK {α : Type} (l : List (Nat × α)) (k : Nat) : List (Nat × α) := l.filter fun x => !decide (x.1 = k)

/-- `src/all_storages/mod.rs:204-230` `remove_unique`. What is under the id is taken for a unique without a check: anything else would be
read as one. `none` is the error for a missing unique. -/
def All.removeUnique (m : All V U X) (k : Nat) : Res (Option U × All V U X) :=
  match lookupK m.stos k with
  | some (.unique u) => .ok (some u.value, { m with stos := eraseK m.stos k })
  | some _ => .error .oob
  | none => .ok (none, m)

end Verif.Mix

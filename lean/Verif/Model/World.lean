import Verif.Model.Entities
import Verif.Model.SparseSet

/-!
# `AllStorages`: the entities and the component storages of a world

Models `src/all_storages/mod.rs`, `src/all_storages/retain.rs`, `src/all_storages/delete_any/*`,
`src/sparse_set/add_component.rs`, `src/sparse_set/delete.rs`, `src/sparse_set/remove.rs`,
`src/sparse_set/bulk_add_entity.rs` and the cross-world part of `src/sparse_set/mod.rs`. The methods of
the same names of `World` (`src/world.rs`) call these on the exclusively borrowed `AllStorages`.

Simplifications:
* the storage map holds the entities and component storages only; unique storages are modelled in
  `Verif/Model/Unique.lean` and ignore `delete`, `clear` and the moves (`src/storage/mod.rs:48-52`);
* all component types share one type `V` of values, `StorageId` is a `Nat`, and `fl k` are the four
  tracking flags given by `T::Tracking` to a new storage of id `k`;
* the hash map is a list of entries; its order is arbitrary (see `Verif/Spec/World.lean`);
* the storages are not borrowed while these methods run: they take `&mut AllStorages`.

A call that panics after it changed something returns the world it leaves, with `Ended.panicked`.
-/
namespace Verif

/-- How a call ended. -/
inductive Ended where
  | returned
  | panicked
  deriving DecidableEq, Repr

/-- Lookup in the storage map. -/
def lookupK {α : Type} : List (Nat × α) → Nat → Option α
  | [], _ => none
  | (k, a) :: l, j => if j = k then some a else lookupK l j

/-- Insertion in the storage map, replacing the entry of the same key. -/
def setK {α : Type} : List (Nat × α) → Nat → α → List (Nat × α)
  | [], k, a => [(k, a)]
  | (j, b) :: l, k, a => if k = j then (j, a) :: l else (j, b) :: setK l k a

/-- `src/all_storages/mod.rs:61-68`: the entity storage, the component storages by id, and the
timestamp counter. -/
structure World (V : Type) where
  ents : Entities
  stos : List (Nat × SparseSet V)
  counter : Nat
  deriving DecidableEq, Repr

/-- The tracking flags of each component type: insertion, modification, deletion, removal. -/
abbrev Flags := Nat → Bool × Bool × Bool × Bool

namespace World
variable {V : Type} (fl : Flags)

/-- `src/all_storages/mod.rs:77-90` `AllStorages::new`; the counter starts at 1 (`src/world.rs:47`). -/
def new : World V := { ents := Entities.new, stos := [], counter := 1 }

/-- `src/all_storages/mod.rs:1497-1501` `is_entity_alive`. -/
def isAlive (w : World V) (e : EId) : Bool := w.ents.isAlive e

/-- `world.get::<&T>(e)` (`src/advanced/get_component.rs`): `None` when the storage is missing or has no
component for `e`. -/
def get (w : World V) (k : Nat) (e : EId) : Res (Option V) :=
  match lookupK w.stos k with
  | some s => s.get e
  | none => .ok none

/-- `src/all_storages/mod.rs:1232-1238` `get_current`: the timestamp is the old value of the counter. -/
def tick (w : World V) : World V := { w with counter := w.counter + 1 }

/-- `SparseSet::<T>::new` for the component type of storage `k`. -/
def newSto (k : Nat) : SparseSet V :=
  SparseSet.new (fl k).1 (fl k).2.1 (fl k).2.2.1 (fl k).2.2.2

/-- `src/all_storages/mod.rs:1124-1144` `exclusive_storage_or_insert_mut`: the storage, new if missing. -/
def stoOr (w : World V) (k : Nat) : SparseSet V := (lookupK w.stos k).getD (newSto fl k)

/-- Writing a storage back. -/
def put (w : World V) (k : Nat) (s : SparseSet V) : World V := { w with stos := setK w.stos k s }

/-- Creating a storage by borrowing it (`src/all_storages/custom_storage.rs:285-345`). -/
def create (w : World V) (k : Nat) : World V := w.put k (w.stoOr fl k)

/-- A loop `for storage in storages.values_mut()`. -/
def mapStos (f : Nat → SparseSet V → Res (SparseSet V)) :
    List (Nat × SparseSet V) → Res (List (Nat × SparseSet V))
  | [] => .ok []
  | (k, s) :: l => do
    let s' ← f k s
    let l' ← mapStos f l
    .ok ((k, s') :: l')

/-- `Storage::delete` of a component storage (`src/sparse_set/mod.rs:783-785`). -/
def stoDelete (e : EId) (now : Nat) (s : SparseSet V) : Res (SparseSet V) := do
  let (_, s') ← s.dynDelete e now
  .ok s'

/-- `TupleAddComponent::add_component` (`src/sparse_set/add_component.rs:20-78`): the components in order;
`none` is an `Option<T>` holding nothing. `assert_inserted` panics on a refused insertion. -/
def addAll (e : EId) (now : Nat) : List (Nat × Option V) → World V → Res (Ended × World V)
  | [], w => .ok (.returned, w)
  | (_, none) :: cs, w => addAll e now cs w
  | (k, some v) :: cs, w => do
    let (r, s') ← (w.stoOr fl k).insert e v now
    if r.wasInserted then addAll e now cs (w.put k s')
    else .ok (.panicked, w.put k s')

/-- `src/all_storages/mod.rs:577-584` `add_entity`. -/
def addEntity (w : World V) (cs : List (Nat × Option V)) : Res (EId × Ended × World V) := do
  let (e, ents) ← w.ents.generate
  let (r, w') ← addAll fl e w.counter cs { w.tick with ents := ents }
  .ok (e, r, w')

/-- `src/all_storages/mod.rs:639-652` `add_component`. -/
def addComponent (w : World V) (e : EId) (cs : List (Nat × Option V)) : Res (Ended × World V) :=
  if w.ents.isAlive e then addAll fl e w.counter cs w.tick
  else .ok (.panicked, w.tick)

/-- The storages of `bulk_insert` (`src/sparse_set/bulk_add_entity.rs:75-106`, `134-196`): each column is
appended to its storage. The code first pushes all components, then all ids, then fills the sparse
arrays; the storages being distinct, storage by storage gives the same result. -/
def bulkCols (ids : List EId) (stamp : Nat) : List (Nat × List V) → World V → Res (World V)
  | [], w => .ok w
  | (k, vs) :: cols, w => do
    let s' ← (w.stoOr fl k).bulkInsert ids vs stamp
    bulkCols ids stamp cols (w.put k s')

/-- `src/all_storages/mod.rs:605-607` `bulk_add_entity` of `n` tuples, given by their columns: one column
(`src/sparse_set/bulk_add_entity.rs:61-118`) uses the current timestamp, several
(`130-206`) use 0. Returns the new ids. -/
def bulkAddEntity (w : World V) (cols : List (Nat × List V)) (n : Nat) :
    Res (List EId × World V) := do
  let len := w.ents.data.length
  let (ids, ents) ← w.ents.bulkGenerate n
  let one := decide (cols.length = 1)
  let w' ← bulkCols fl ids (if one then w.counter else 0) cols
    { w with ents := ents, counter := if one then w.counter + 1 else w.counter }
  .ok (w'.ents.data.drop len, w')

/-- `src/all_storages/mod.rs:295-301` `strip`. -/
def strip (w : World V) (e : EId) : Res (World V) := do
  let stos ← mapStos (fun _ => stoDelete e w.counter) w.stos
  .ok { w.tick with stos := stos }

/-- The inner loop of `bulk_strip`. -/
def stoDeleteAll (now : Nat) : List EId → SparseSet V → Res (SparseSet V)
  | [], s => .ok s
  | e :: es, s => do
    let s' ← stoDelete e now s
    stoDeleteAll now es s'

/-- `src/all_storages/mod.rs:330-353` `bulk_strip` and `383-413` `par_strip`: in the latter the storages
are handled by different threads, see `Verif/Model/ParStrip.lean`. -/
def bulkStrip (w : World V) (es : List EId) : Res (World V) := do
  let stos ← mapStos (fun _ => stoDeleteAll w.counter es) w.stos
  .ok { w.tick with stos := stos }

/-- `src/all_storages/mod.rs:443-451` `retain_storage_by_id`. -/
def retainStorageById (w : World V) (e : EId) (keep : List Nat) : Res (World V) := do
  let stos ← mapStos (fun k s => if keep.contains k then .ok s else stoDelete e w.counter s) w.stos
  .ok { w.tick with stos := stos }

/-- `src/all_storages/mod.rs:436-438` `retain_storage` with the impls of `TupleRetainStorage`
(`src/all_storages/retain.rs:13-34`): the empty tuple does nothing at all. -/
def retainStorage (w : World V) (e : EId) (keep : List Nat) : Res (World V) :=
  match keep with
  | [] => .ok w
  | _ => w.retainStorageById e keep

/-- `src/all_storages/mod.rs:260-273` `delete_entity`. -/
def deleteEntity (w : World V) (e : EId) : Res (Bool × World V) := do
  let (b, ents) ← w.ents.deleteUnchecked e
  if b then do
    let w' ← strip { w with ents := ents } e
    .ok (true, w')
  else .ok (false, { w with ents := ents })

/-- `src/all_storages/mod.rs:465-471` `clear`. The entity storage is one of the storages. -/
def clear (w : World V) : Res (World V) := do
  let ents ← w.ents.clear
  let stos ← mapStos (fun _ s => s.clear w.counter) w.stos
  .ok { w.tick with ents := ents, stos := stos }

/-- `src/all_storages/mod.rs:531-538` `retain`: `exclusive_storage_mut().unwrap()` panics when the
storage does not exist. -/
def retain {σ : Type} (w : World V) (k : Nat) (st : σ) (f : σ → EId → V → Bool × σ) :
    Res (σ × World V) :=
  match lookupK w.stos k with
  | none => .error .panic
  | some s => do
    let (st', s') ← s.retain w.counter st f
    .ok (st', w.tick.put k s')

/-- The tuple impl of `TupleRemove` (`src/sparse_set/remove.rs:40-58`). -/
def removeAll (e : EId) (now : Nat) : List Nat → World V → Res (List (Option V) × World V)
  | [], w => .ok ([], w)
  | k :: ks, w => do
    let (r, s') ← (w.stoOr fl k).dynRemove e now
    let (rs, w') ← removeAll e now ks (w.put k s')
    .ok (r :: rs, w')

/-- `src/all_storages/mod.rs:700-702` `remove`. -/
def remove (w : World V) (ks : List Nat) (e : EId) : Res (List (Option V) × World V) :=
  removeAll fl e w.counter ks w.tick

/-- The tuple impl of `TupleDelete` (`src/sparse_set/delete.rs:28-43`): the deletions are joined by `||`, so
the first one that succeeds is the last one made. -/
def deleteFirst (e : EId) (now : Nat) : List Nat → World V → Res (Bool × World V)
  | [], w => .ok (false, w)
  | k :: ks, w => do
    let (b, s') ← (w.stoOr fl k).dynDelete e now
    if b then .ok (true, w.put k s')
    else deleteFirst e now ks (w.put k s')

/-- `src/all_storages/mod.rs:674-676` `delete_component`. -/
def deleteComponent (w : World V) (ks : List Nat) (e : EId) : Res (Bool × World V) :=
  deleteFirst fl e w.counter ks w.tick

/-- The first loop of `delete_any` (`src/all_storages/delete_any/mod.rs:46-52`,
`custom_delete_any.rs:18-24`): the ids of each listed storage that exists are collected, the storage is
cleared. -/
def deleteAnyCollect (now : Nat) : List Nat → World V → Res (List EId × World V)
  | [], w => .ok ([], w)
  | k :: ks, w =>
    match lookupK w.stos k with
    | none => deleteAnyCollect now ks w
    | some s => do
      let s' ← s.clear now
      let (ids, w') ← deleteAnyCollect now ks (w.put k s')
      .ok (s.dense ++ ids, w')

/-- `for id in ids { all_storages.delete_entity(id); }`. -/
def deleteEntities : List EId → World V → Res (World V)
  | [], w => .ok w
  | e :: es, w => do
    let (_, w') ← w.deleteEntity e
    deleteEntities es w'

/-- `src/all_storages/mod.rs:1068-1070` `delete_any`. The ids are put in a hash set: `order` is how it
iterates over them, each once. -/
def deleteAny (w : World V) (ks : List Nat) (order : List EId → List EId) : Res (World V) := do
  let (ids, w') ← deleteAnyCollect w.counter ks w.tick
  deleteEntities (order ids) w'

/-- `src/all_storages/mod.rs:1221-1225` `spawn`. -/
def spawn (w : World V) (e : EId) : Res (Bool × World V) := do
  let (b, ents) ← w.ents.spawn e
  .ok (b, { w with ents := ents })

/-- Inserting a component in the other world, its storage being made if missing; the result of the
insertion is dropped (`let _ = other_sparse_set.insert(..)`, `src/sparse_set/mod.rs:826-831`, `868-873`). -/
def putOpt (o : World V) (k : Nat) (dst : EId) (nowO : Nat) : Option V → Res (World V)
  | some v => do
    let (_, t) ← (o.stoOr fl k).insert dst v nowO
    .ok (o.put k t)
  | none => .ok o

/-- The loop of `move_entity` and `move_components` over the source storages, with `move_component_from`
(`src/sparse_set/mod.rs:817-833`). -/
def moveLoop (src dst : EId) (now nowO : Nat) :
    List (Nat × SparseSet V) → World V → Res (List (Nat × SparseSet V) × World V)
  | [], o => .ok ([], o)
  | (k, s) :: l, o => do
    let (c, s') ← s.dynRemove src now
    let o' ← putOpt fl o k dst nowO c
    let (l', o'') ← moveLoop src dst now nowO l o'
    .ok ((k, s') :: l', o'')

/-- `src/all_storages/mod.rs:1529-1564` `move_entity`. Both asserts come after the entity was deleted in
the source. -/
def moveEntity (w o : World V) (e : EId) : Res (Ended × World V × World V) := do
  let (b, ents) ← w.ents.deleteUnchecked e
  if b then do
    let (b', entsO) ← o.ents.spawn e
    if b' then do
      let (stos, o') ← moveLoop fl e e w.counter o.counter w.stos { o.tick with ents := entsO }
      .ok (.returned, { w.tick with ents := ents, stos := stos }, o')
    else .ok (.panicked, { w.tick with ents := ents }, { o.tick with ents := entsO })
  else .ok (.panicked, { w.tick with ents := ents }, o.tick)

/-- `src/all_storages/mod.rs:1592-1630` `move_components`. -/
def moveComponents (w o : World V) (src dst : EId) : Res (Ended × World V × World V) :=
  if w.ents.isAlive src then
    if o.ents.isAlive dst then do
      let (stos, o') ← moveLoop fl src dst w.counter o.counter w.stos o.tick
      .ok (.returned, { w.tick with stos := stos }, o')
    else .ok (.panicked, w.tick, o.tick)
  else .ok (.panicked, w.tick, o.tick)

/-- `src/sparse_set/mod.rs:775-778` `register_clone` on the storage of id `k`, made if missing
(`src/all_storages/clone.rs:16-22`). -/
def registerClone (w : World V) (k : Nat) : World V :=
  w.put k { w.stoOr fl k with canClone := true }

/-- `src/sparse_set/mod.rs:835-856` `try_clone` of a component storage with a registered clone function,
which is `cl k`. -/
def cloneSto (cl : Nat → V → V) (nowO k : Nat) (s : SparseSet V) : SparseSet V :=
  let n : SparseSet V := newSto fl k
  { n with
    sparse := s.sparse
    dense := s.dense
    data := s.data.map (cl k)
    insertionData := if n.trkIns then List.replicate s.dense.length nowO else []
    modificationData := if n.trkMod then List.replicate s.dense.length 0 else [] }

/-- The loop of `clone_storages_to` over the component storages of the source. -/
def cloneLoop (cl : Nat → V → V) (nowO : Nat) : List (Nat × SparseSet V) → World V → World V
  | [], o => o
  | (k, s) :: l, o =>
    cloneLoop cl nowO l (if s.canClone then o.put k (cloneSto fl cl nowO k s) else o)

/-- `src/all_storages/mod.rs:1639-1705` `clone_storages_to`. The entities are always cloned. -/
def cloneStoragesTo (cl : Nat → V → V) (w o : World V) : World V :=
  { cloneLoop fl cl o.counter w.stos o.tick with ents := w.ents.tryClone }

/-- The component `clone_component_to` clones: nothing without a registered clone function. -/
def cloneOf (cl : Nat → V → V) (src : EId) (k : Nat) (s : SparseSet V) : Res (Option V) :=
  if s.canClone then do
    let c ← s.get src
    .ok (c.map (cl k))
  else .ok none

/-- The loop of `clone_entity_to` and `clone_components_to` with `clone_component_to`
(`src/sparse_set/mod.rs:858-876`). -/
def cloneCompLoop (cl : Nat → V → V) (src dst : EId) (nowO : Nat) :
    List (Nat × SparseSet V) → World V → Res (World V)
  | [], o => .ok o
  | (k, s) :: l, o => do
    let c ← cloneOf cl src k s
    let o' ← putOpt fl o k dst nowO c
    cloneCompLoop cl src dst nowO l o'

/-- `src/all_storages/mod.rs:1709-1734` `clone_entity_to`. Returns the other world. -/
def cloneEntityTo (cl : Nat → V → V) (w o : World V) (e : EId) : Res (Ended × World V) :=
  if w.ents.isAlive e then do
    let (b, entsO) ← o.ents.spawn e
    if b then do
      let o' ← cloneCompLoop fl cl e e o.counter w.stos { o.tick with ents := entsO }
      .ok (.returned, o')
    else .ok (.panicked, { o.tick with ents := entsO })
  else .ok (.panicked, o.tick)

/-- `src/all_storages/mod.rs:1739-1772` `clone_components_to`. Returns the other world. -/
def cloneComponentsTo (cl : Nat → V → V) (w o : World V) (src dst : EId) : Res (Ended × World V) :=
  if w.ents.isAlive src then
    if o.ents.isAlive dst then do
      let o' ← cloneCompLoop fl cl src dst o.counter w.stos o.tick
      .ok (.returned, o')
    else .ok (.panicked, o.tick)
  else .ok (.panicked, o.tick)

/-- `src/all_storages/mod.rs:474-480` `clear_all_removed_and_deleted`. -/
def clearAllRemovedAndDeleted (w : World V) : World V :=
  { w with stos := w.stos.map fun x => (x.1, x.2.storageClearAllRemovedAndDeleted) }

/-- `src/all_storages/mod.rs:483-492`. -/
def clearAllRemovedAndDeletedOlderThan (w : World V) (t : Nat) : World V :=
  { w with stos := w.stos.map fun x => (x.1, x.2.clearAllRemovedAndDeletedOlderThan t) }

/-- `src/all_storages/mod.rs:496-502` `clear_all_inserted`; `get_tracking_timestamp` does not advance the
counter. -/
def clearAllInserted (w : World V) : World V :=
  { w with stos := w.stos.map fun x => (x.1, x.2.clearAllInserted w.counter) }

/-- `src/all_storages/mod.rs:506-512` `clear_all_modified`. -/
def clearAllModified (w : World V) : World V :=
  { w with stos := w.stos.map fun x => (x.1, x.2.clearAllModified w.counter) }

/-- `src/all_storages/mod.rs:516-523` `clear_all_inserted_and_modified`. -/
def clearAllInsertedAndModified (w : World V) : World V :=
  { w with stos := w.stos.map fun x => (x.1, (x.2.clearAllInserted w.counter).clearAllModified w.counter) }

end World
end Verif

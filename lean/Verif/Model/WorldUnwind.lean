import Verif.Model.World
import Verif.Model.Unwind

/-!
# Worlds whose callbacks or destructors panic

The functions of `Verif/Model/World.lean`, each returning how it ended and the world the unwinding leaves.
`p i` says whether the callback and whether a destructor panics during the `i`-th call the function makes on
a storage (for loops over all storages: during the call on storage `i`). Guards are given back while
unwinding (`src/advanced/atomic_refcell/borrow_state.rs:13-50`), the functions below hold `&mut AllStorages`.

A second panic while unwinding aborts the program; nothing is said about that.
-/
namespace Verif

/-- During call number `i`: does the callback panic, does a destructor? -/
abbrev Panics := Nat → Bool × Bool

namespace Entities

/-- The loop of `clear` (`src/entities/mod.rs:404-417`) when the callback panics on slot `i` for
`panicsAt i`: the generation is bumped before the callback runs, the index is written after it. The slots
above are done. Returns the slots, the ids given to the callback and whether it panicked. -/
def clearLoopU (panicsAt : Nat → Bool) (d : List EId) (lastAlive : Nat) :
    Nat → Res (List EId × List EId × Bool)
  | 0 => .ok (d, [], false)
  | i + 1 => do
    let id ← getC d i
    match id.bumpGen with
    | some b =>
      if panicsAt i then .ok (d.set i b, [id], true)
      else do
        let b' ← b.setIndex lastAlive
        let (d', called, bad) ← clearLoopU panicsAt (d.set i b') i i
        .ok (d', id :: called, bad)
    | none => do
      let b' ← id.setIndex lastAlive
      clearLoopU panicsAt (d.set i b') lastAlive i

/-- `src/entities/mod.rs:392-431` `Storage::clear`. -/
def clearU (s : Entities) (panicsAt : Nat → Bool) : Res (Out Unit × Entities) :=
  if s.data.isEmpty then .ok (.returned (), s)
  else do
    let init := if s.data.length = EId.maxIndex then 0 else EId.maxIndex
    let (d, called, bad) ← clearLoopU (fun i => s.hook && panicsAt i) s.data init s.data.length
    let log := if s.hook then s.log ++ called else s.log
    if bad then .ok (.unwound .hook, { s with data := d, log := log })
    else
      match d.findIdx? (fun id => id.gen < EId.MAX_GEN),
          d.reverse.findIdx? (fun id => id.gen < EId.MAX_GEN) with
      | some b, some e =>
        .ok (.returned (), { s with data := d, list := some (d.length - e - 1, b), log := log })
      | _, _ => .error .panic

/-- `src/entities/mod.rs:169-209` `delete_unchecked`: the callback comes last. -/
def deleteUncheckedU (s : Entities) (e : EId) (hookPanics : Bool) : Res (Out Bool × Entities) := do
  let (b, s') ← s.deleteUnchecked e
  if b && s'.hook && hookPanics then .ok (.unwound .hook, s') else .ok (.returned b, s')

end Entities

namespace World
variable {V : Type} (fl : Flags)

/-- `src/sparse_set/add_component.rs:20-78`. The result of `insert` lives until the end of the statement
(`assert_inserted` takes it by reference): a replaced component is dropped there, after the insertion. -/
def addAllU (p : Panics) (e : EId) (now : Nat) :
    Nat → List (Nat × Option V) → World V → Res (Out Unit × World V)
  | _, [], w => .ok (.returned (), w)
  | i, (_, none) :: cs, w => addAllU p e now i cs w
  | i, (k, some v) :: cs, w => do
    match ← (w.stoOr fl k).insertU e v now (p i).1 (p i).2 with
    | (.unwound u, s') => .ok (.unwound u, w.put k s')
    | (.returned .notInserted, s') => .ok (.unwound .refused, w.put k s')
    | (.returned (.componentOverride _), s') =>
      if (p i).2 then .ok (.unwound .dtor, w.put k s')
      else addAllU p e now (i + 1) cs (w.put k s')
    | (.returned _, s') => addAllU p e now (i + 1) cs (w.put k s')

/-- `src/all_storages/mod.rs:577-584` `add_entity`. The first component of the result is the id of the new
entity, which the caller only gets when the call returns. -/
def addEntityU (p : Panics) (w : World V) (cs : List (Nat × Option V)) :
    Res (EId × Out Unit × World V) := do
  let (e, ents) ← w.ents.generate
  let (r, w') ← addAllU fl p e w.counter 0 cs { w.tick with ents := ents }
  .ok (e, r, w')

/-- `src/all_storages/mod.rs:639-652` `add_component`. -/
def addComponentU (p : Panics) (w : World V) (e : EId) (cs : List (Nat × Option V)) :
    Res (Out Unit × World V) :=
  if w.ents.isAlive e then addAllU fl p e w.counter 0 cs w.tick
  else .ok (.unwound .refused, w.tick)

/-- A loop `for storage in storages.values_mut()`: it ends with the first call that unwinds. -/
def mapStosU (f : Nat → SparseSet V → Res (Out Unit × SparseSet V)) :
    List (Nat × SparseSet V) → Res (Out Unit × List (Nat × SparseSet V))
  | [] => .ok (.returned (), [])
  | (k, s) :: l => do
    match ← f k s with
    | (.unwound u, s') => .ok (.unwound u, (k, s') :: l)
    | (.returned _, s') => do
      let (out, l') ← mapStosU f l
      .ok (out, (k, s') :: l')

/-- `Storage::delete` of a component storage (`src/sparse_set/mod.rs:783-785`). -/
def stoDeleteU (p : Bool × Bool) (e : EId) (now : Nat) (s : SparseSet V) :
    Res (Out Unit × SparseSet V) := do
  match ← s.dynDeleteU e now p.1 p.2 with
  | (.unwound u, s') => .ok (.unwound u, s')
  | (.returned _, s') => .ok (.returned (), s')

/-- `src/all_storages/mod.rs:295-301` `strip`. -/
def stripU (p : Panics) (w : World V) (e : EId) : Res (Out Unit × World V) := do
  let (out, stos) ← mapStosU (fun k => stoDeleteU (p k) e w.counter) w.stos
  .ok (out, { w.tick with stos := stos })

/-- `src/all_storages/mod.rs:443-451` `retain_storage_by_id`. -/
def retainStorageByIdU (p : Panics) (w : World V) (e : EId) (keep : List Nat) :
    Res (Out Unit × World V) := do
  let (out, stos) ← mapStosU (fun k s => if keep.contains k then .ok (.returned (), s)
    else stoDeleteU (p k) e w.counter s) w.stos
  .ok (out, { w.tick with stos := stos })

/-- The inner loop of `bulk_strip`; `p i` for the `i`-th id. -/
def stoDeleteAllU (p : Panics) (now : Nat) : Nat → List EId → SparseSet V → Res (Out Unit × SparseSet V)
  | _, [], s => .ok (.returned (), s)
  | i, e :: es, s => do
    match ← stoDeleteU (p i) e now s with
    | (.unwound u, s') => .ok (.unwound u, s')
    | (.returned _, s') => stoDeleteAllU p now (i + 1) es s'

/-- `src/all_storages/mod.rs:330-353` `bulk_strip`. -/
def bulkStripU (p : Nat → Panics) (w : World V) (es : List EId) : Res (Out Unit × World V) := do
  let (out, stos) ← mapStosU (fun k => stoDeleteAllU (p k) w.counter 0 es) w.stos
  .ok (out, { w.tick with stos := stos })

/-- `src/all_storages/mod.rs:260-273` `delete_entity`; `hookPanics` is about `on_deletion`. -/
def deleteEntityU (hookPanics : Bool) (p : Panics) (w : World V) (e : EId) :
    Res (Out Bool × World V) := do
  match ← w.ents.deleteUncheckedU e hookPanics with
  | (.unwound u, ents) => .ok (.unwound u, { w with ents := ents })
  | (.returned false, ents) => .ok (.returned false, { w with ents := ents })
  | (.returned true, ents) => do
    match ← stripU p { w with ents := ents } e with
    | (.unwound u, w') => .ok (.unwound u, w')
    | (.returned _, w') => .ok (.returned true, w')

/-- `src/sparse_set/remove.rs:40-58`. -/
def removeAllU (p : Panics) (e : EId) (now : Nat) :
    Nat → List Nat → World V → Res (Out (List (Option V)) × World V)
  | _, [], w => .ok (.returned [], w)
  | i, k :: ks, w => do
    match ← (w.stoOr fl k).dynRemoveU e now (p i).1 (p i).2 with
    | (.unwound u, s') => .ok (.unwound u, w.put k s')
    | (.returned r, s') => do
      match ← removeAllU p e now (i + 1) ks (w.put k s') with
      | (.unwound u, w') => .ok (.unwound u, w')
      | (.returned rs, w') => .ok (.returned (r :: rs), w')

/-- `src/all_storages/mod.rs:700-702` `remove`. -/
def removeU (p : Panics) (w : World V) (ks : List Nat) (e : EId) :
    Res (Out (List (Option V)) × World V) := removeAllU fl p e w.counter 0 ks w.tick

/-- `src/sparse_set/delete.rs:28-43`. -/
def deleteFirstU (p : Panics) (e : EId) (now : Nat) :
    Nat → List Nat → World V → Res (Out Bool × World V)
  | _, [], w => .ok (.returned false, w)
  | i, k :: ks, w => do
    match ← (w.stoOr fl k).dynDeleteU e now (p i).1 (p i).2 with
    | (.unwound u, s') => .ok (.unwound u, w.put k s')
    | (.returned b, s') =>
      if b then .ok (.returned true, w.put k s')
      else deleteFirstU p e now (i + 1) ks (w.put k s')

/-- `src/all_storages/mod.rs:674-676` `delete_component`. -/
def deleteComponentU (p : Panics) (w : World V) (ks : List Nat) (e : EId) : Res (Out Bool × World V) :=
  deleteFirstU fl p e w.counter 0 ks w.tick

/-- `src/all_storages/mod.rs:465-471` `clear`. The entities are one of the storages; in the order of the
hash map they come after `m` component storages. -/
def clearU (m : Nat) (hookPanics : Nat → Bool) (p : Panics) (w : World V) : Res (Out Unit × World V) := do
  let f := fun k (s : SparseSet V) => s.clearU w.counter (p k).2
  match ← mapStosU f (w.stos.take m) with
  | (.unwound u, l) => .ok (.unwound u, { w.tick with stos := l ++ w.stos.drop m })
  | (.returned _, l) => do
    match ← w.ents.clearU hookPanics with
    | (.unwound u, ents) => .ok (.unwound u, { w.tick with ents := ents, stos := l ++ w.stos.drop m })
    | (.returned _, ents) => do
      let (out, l') ← mapStosU f (w.stos.drop m)
      .ok (out, { w.tick with ents := ents, stos := l ++ l' })

/-- The first loop of `delete_any` (`src/all_storages/delete_any/mod.rs:46-52`). -/
def deleteAnyCollectU (p : Panics) (now : Nat) :
    Nat → List Nat → World V → Res (Out (List EId) × World V)
  | _, [], w => .ok (.returned [], w)
  | i, k :: ks, w =>
    match lookupK w.stos k with
    | none => deleteAnyCollectU p now (i + 1) ks w
    | some s => do
      match ← s.clearU now (p i).2 with
      | (.unwound u, s') => .ok (.unwound u, w.put k s')
      | (.returned _, s') => do
        match ← deleteAnyCollectU p now (i + 1) ks (w.put k s') with
        | (.unwound u, w') => .ok (.unwound u, w')
        | (.returned ids, w') => .ok (.returned (s.dense ++ ids), w')

/-- `for id in ids { all_storages.delete_entity(id); }`. -/
def deleteEntitiesU (p : Nat → Bool × Panics) : Nat → List EId → World V → Res (Out Unit × World V)
  | _, [], w => .ok (.returned (), w)
  | i, e :: es, w => do
    match ← w.deleteEntityU (p i).1 (p i).2 e with
    | (.unwound u, w') => .ok (.unwound u, w')
    | (.returned _, w') => deleteEntitiesU p (i + 1) es w'

/-- `src/all_storages/mod.rs:1068-1070` `delete_any`. -/
def deleteAnyU (p : Panics) (q : Nat → Bool × Panics) (w : World V) (ks : List Nat)
    (order : List EId → List EId) : Res (Out Unit × World V) := do
  match ← deleteAnyCollectU p w.counter 0 ks w.tick with
  | (.unwound u, w') => .ok (.unwound u, w')
  | (.returned ids, w') => deleteEntitiesU q 0 (order ids) w'

/-- Inserting in the other world, as `putOpt`. `let _ = other_sparse_set.insert(..)`
(`src/sparse_set/mod.rs:831`, `873`) drops the result at once: a component of the same entity that was
replaced is dropped then, with the new one in place. A component that was not inserted is dropped by
`insert`. -/
def putOptU (p : Bool × Bool) (o : World V) (k : Nat) (dst : EId) (nowO : Nat) :
    Option V → Res (Out Unit × World V)
  | none => .ok (.returned (), o)
  | some v => do
    match ← (o.stoOr fl k).insertU dst v nowO p.1 p.2 with
    | (.unwound u, t) => .ok (.unwound u, o.put k t)
    | (.returned (.componentOverride _), t) =>
      .ok (if p.2 then .unwound .dtor else .returned (), o.put k t)
    | (.returned .notInserted, t) => .ok (if p.2 then .unwound .dtor else .returned (), o.put k t)
    | (.returned _, t) => .ok (.returned (), o.put k t)

/-- The loop of `move_entity` and `move_components` with `move_component_from`
(`src/sparse_set/mod.rs:817-833`); `p k` is about the storage `k` of the source, `q k` of the other world.
A component that was removed and whose insertion unwinds is lost. -/
def moveLoopU (p q : Panics) (src dst : EId) (now nowO : Nat) :
    List (Nat × SparseSet V) → World V → Res (Out Unit × List (Nat × SparseSet V) × World V)
  | [], o => .ok (.returned (), [], o)
  | (k, s) :: l, o => do
    match ← s.dynRemoveU src now (p k).1 (p k).2 with
    | (.unwound u, s') => .ok (.unwound u, (k, s') :: l, o)
    | (.returned c, s') => do
      match ← putOptU fl (q k) o k dst nowO c with
      | (.unwound u, o') => .ok (.unwound u, (k, s') :: l, o')
      | (.returned _, o') => do
        let (out, l', o'') ← moveLoopU p q src dst now nowO l o'
        .ok (out, (k, s') :: l', o'')

/-- `src/all_storages/mod.rs:1529-1564` `move_entity`; `hookPanics` is about `on_deletion` of the source.
Returns both worlds. -/
def moveEntityU (hookPanics : Bool) (p q : Panics) (w o : World V) (e : EId) :
    Res (Out Unit × World V × World V) := do
  match ← w.ents.deleteUncheckedU e hookPanics with
  | (.unwound u, ents) => .ok (.unwound u, { w.tick with ents := ents }, o.tick)
  | (.returned false, ents) => .ok (.unwound .refused, { w.tick with ents := ents }, o.tick)
  | (.returned true, ents) => do
    let (b, entsO) ← o.ents.spawn e
    if b then do
      let (out, stos, o') ← moveLoopU fl p q e e w.counter o.counter w.stos { o.tick with ents := entsO }
      .ok (out, { w.tick with ents := ents, stos := stos }, o')
    else .ok (.unwound .refused, { w.tick with ents := ents }, { o.tick with ents := entsO })

/-- `src/all_storages/mod.rs:1592-1630` `move_components`. -/
def moveComponentsU (p q : Panics) (w o : World V) (src dst : EId) : Res (Out Unit × World V × World V) :=
  if w.ents.isAlive src then
    if o.ents.isAlive dst then do
      let (out, stos, o') ← moveLoopU fl p q src dst w.counter o.counter w.stos o.tick
      .ok (out, { w.tick with stos := stos }, o')
    else .ok (.unwound .refused, w.tick, o.tick)
  else .ok (.unwound .refused, w.tick, o.tick)

/-- The loop of `clone_entity_to` and `clone_components_to` with `clone_component_to`
(`src/sparse_set/mod.rs:858-876`); `c k` says whether the clone function panics, which is called once the
storage of the other world is there. -/
def cloneCompLoopU (cl : Nat → V → V) (c : Nat → Bool) (q : Panics) (src dst : EId) (nowO : Nat) :
    List (Nat × SparseSet V) → World V → Res (Out Unit × World V)
  | [], o => .ok (.returned (), o)
  | (k, s) :: l, o => do
    match ← cloneOf cl src k s with
    | none => cloneCompLoopU cl c q src dst nowO l o
    | some v =>
      if c k then .ok (.unwound .closure, o.create fl k)
      else do
        match ← putOptU fl (q k) o k dst nowO (some v) with
        | (.unwound u, o') => .ok (.unwound u, o')
        | (.returned _, o') => cloneCompLoopU cl c q src dst nowO l o'

/-- `src/all_storages/mod.rs:1709-1734` `clone_entity_to`. Returns the other world. -/
def cloneEntityToU (cl : Nat → V → V) (c : Nat → Bool) (q : Panics) (w o : World V) (e : EId) :
    Res (Out Unit × World V) :=
  if w.ents.isAlive e then do
    let (b, entsO) ← o.ents.spawn e
    if b then cloneCompLoopU fl cl c q e e o.counter w.stos { o.tick with ents := entsO }
    else .ok (.unwound .refused, { o.tick with ents := entsO })
  else .ok (.unwound .refused, o.tick)

/-- `src/all_storages/mod.rs:1739-1772` `clone_components_to`. Returns the other world. -/
def cloneComponentsToU (cl : Nat → V → V) (c : Nat → Bool) (q : Panics) (w o : World V) (src dst : EId) :
    Res (Out Unit × World V) :=
  if w.ents.isAlive src then
    if o.ents.isAlive dst then cloneCompLoopU fl cl c q src dst o.counter w.stos o.tick
    else .ok (.unwound .refused, o.tick)
  else .ok (.unwound .refused, o.tick)

/-- The loop of `clone_storages_to` over component storages of the source, in the order of the map; `c k v` says whether
the clone function panics on `v` (the clones made before it are dropped with the new storage, which is not in the other
world yet, `src/sparse_set/mod.rs:835-856`), `d k` whether a destructor panics when the storage that is replaced goes
away, which is after the new one took its place (`src/all_storages/mod.rs:1702`). -/
def cloneLoopU (cl : Nat → V → V) (c : Nat → V → Bool) (d : Nat → Bool) (nowO : Nat) :
    List (Nat × SparseSet V) → World V → Out Unit × World V
  | [], o => (.returned (), o)
  | (k, s) :: l, o =>
    if s.canClone then
      if s.data.any (c k) then (.unwound .closure, o)
      else if d k && ((lookupK o.stos k).any fun t => !t.data.isEmpty) then
        (.unwound .dtor, o.put k (cloneSto fl cl nowO k s))
      else cloneLoopU cl c d nowO l (o.put k (cloneSto fl cl nowO k s))
    else cloneLoopU cl c d nowO l o

/-- `src/all_storages/mod.rs:1639-1705` `clone_storages_to`. The map of the source is visited in the order `before`, the
storage of the entities, `after`. Nothing of the user runs when that one is cloned and replaced, except the destructor
of its `on_deletion`, which is not modelled. Returns the other world. -/
def cloneStoragesToU (cl : Nat → V → V) (c : Nat → V → Bool) (d : Nat → Bool) (before after : List (Nat × SparseSet V))
    (w o : World V) : Out Unit × World V :=
  match cloneLoopU fl cl c d o.counter before o.tick with
  | (.unwound u, o') => (.unwound u, o')
  | (.returned _, o') => cloneLoopU fl cl c d o.counter after { o' with ents := w.ents.tryClone }

end World
end Verif

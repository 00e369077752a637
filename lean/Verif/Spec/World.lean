import Verif.Model.World
import Verif.Spec.Entities
import Verif.Spec.Storage

/-!
# Worlds driven through their API

`Reach fl w h`: the world `w` can be reached from an empty one by calls of the API, in any number and
any order; `h` are the calls that concern its entities, oldest first. What a user observes of a world is
`w.isAlive e` and `w.get k e` (`world.get::<&T>(e)`, `k` standing for the type `T`).

The calls that can leave a component to a dead entity are restricted or left out; `Verif/Props/World.lean`
shows for each of them that it does:
`spawn` and the cross-world calls are only made when no other entity is alive at that index, views are not
used to insert for dead ids, and `EntitiesViewMut::delete_unchecked` is not called.
-/
namespace Verif.WSpec
open EntSpec (Event)
open StoSpec (Valid)
variable {V : Type}

/-- Calls on a view that insert nothing. -/
def InsertsNothing : StoSpec.Event V → Prop
  | .inserted _ _ _ _ => False
  | .bulk _ _ _ => False
  | _ => True

/-- No other entity is alive at the index of `e`. -/
def FreeFor (w : World V) (e : EId) : Prop := ∀ x, w.isAlive x = true → x.idx = e.idx → x = e

/-- The store stays below `2^48 - 3` slots. -/
def Fits (w : World V) : Prop := w.ents.data.length < EId.maxIndex

/-- The component of type `k` after a component list was given to an entity that had `old`: the last one
listed, if any. -/
def Listed : List (Nat × Option V) → Nat → Option V → Option V
  | [], _, old => old
  | (j, some v) :: cs, k, old => Listed cs k (if j = k then some v else old)
  | (_, none) :: cs, k, old => Listed cs k old

inductive Reach (fl : Flags) : World V → List Event → Prop where
  /-- A new world, with or without a deletion callback. -/
  | init (hook : Bool) : Reach fl { World.new with ents := { Entities.new with hook := hook } } []
  | addEntity {w h cs e r w'} : Reach fl w h → w.addEntity fl cs = .ok (e, r, w') → Fits w' →
      Reach fl w' (h ++ [.added e])
  /-- Several entities at once; the component types of a tuple are distinct. -/
  | bulkAddEntity {w h cols n es w'} : Reach fl w h → (cols.map Prod.fst).Nodup → cols ≠ [] →
      (∀ c ∈ cols, c.2.length = n) → w.bulkAddEntity fl cols n = .ok (es, w') → Fits w' →
      Reach fl w' (h ++ [.bulkAdded es])
  | addComponent {w h e cs r w'} : Reach fl w h → w.addComponent fl e cs = .ok (r, w') → Reach fl w' h
  | deleteEntity {w h e b w'} : Reach fl w h → Valid e → w.deleteEntity e = .ok (b, w') →
      Reach fl w' (h ++ [.deleted e b])
  | strip {w h e w'} : Reach fl w h → Valid e → w.strip e = .ok w' → Reach fl w' h
  | bulkStrip {w h es w'} : Reach fl w h → (∀ e ∈ es, Valid e) → w.bulkStrip es = .ok w' → Reach fl w' h
  | retainStorage {w h e keep w'} : Reach fl w h → Valid e → w.retainStorage e keep = .ok w' →
      Reach fl w' h
  | remove {w h ks e rs w'} : Reach fl w h → Valid e → w.remove fl ks e = .ok (rs, w') → Reach fl w' h
  | deleteComponent {w h ks e b w'} : Reach fl w h → Valid e → w.deleteComponent fl ks e = .ok (b, w') →
      Reach fl w' h
  /-- `delete_any`; the hash set yields each id once, in any order. -/
  | deleteAny {w h ks order w'} (dead : List EId) : Reach fl w h →
      (∀ ids : List EId, (order ids).Nodup ∧ ∀ e, e ∈ order ids ↔ e ∈ ids) →
      w.deleteAny ks order = .ok w' →
      (∃ ids w1, w.tick.deleteAnyCollect w.counter ks = .ok (ids, w1) ∧ dead = order ids) →
      Reach fl w' (h ++ dead.map fun e => .deleted e true)
  | clear {w h w'} : Reach fl w h → (∀ e ∈ w.ents.data, e.gen < 65533) → w.clear = .ok w' →
      Reach fl w' (h ++ [.cleared])
  | spawn {w h e b w'} : Reach fl w h → Valid e → FreeFor w e → w.spawn e = .ok (b, w') → Fits w' →
      Reach fl w' (h ++ [.spawned e b])
  /-- A storage is made by borrowing it. -/
  | create {w h} (k : Nat) : Reach fl w h → Reach fl (w.create fl k) h
  | registerClone {w h} (k : Nat) : Reach fl w h → Reach fl (w.registerClone fl k) h
  /-- Any call on a storage through a view that inserts nothing: writes, removals, `retain`, `clear`,
  `drain`, sorting, tracking and callbacks. -/
  | view {w h k s ev s'} : Reach fl w h → lookupK w.stos k = some s → StoSpec.Step s ev s' →
      InsertsNothing ev → Reach fl (w.put k s') h
  /-- `entities.add_component(e, views, ..)`, which checks that `e` is alive. -/
  | viewAdd {w h k s e v now r s'} : Reach fl w h → lookupK w.stos k = some s → w.isAlive e = true →
      s.insert e v now = .ok (r, s') → Reach fl (w.put k s') h
  | onDeletion {w h} : Reach fl w h → Reach fl { w with ents := w.ents.onDeletion } h
  | takeOnDeletion {w h} : Reach fl w h → Reach fl { w with ents := w.ents.takeOnDeletion } h
  /-- Other calls take timestamps. -/
  | clock {w h} (c : Nat) : Reach fl w h → Reach fl { w with counter := c } h
  /-- The hash map of storages may be iterated in another order. -/
  | rehash {w h} (l : List (Nat × SparseSet V)) : Reach fl w h → w.stos.Perm l →
      Reach fl { w with stos := l } h
  | moveOut {w h o ho e w' o'} : Reach fl w h → Reach fl o ho → FreeFor o e →
      w.moveEntity fl o e = .ok (.returned, w', o') → Fits o' → Reach fl w' (h ++ [.deleted e true])
  | moveIn {w h o ho e w' o'} : Reach fl w h → Reach fl o ho → FreeFor o e →
      w.moveEntity fl o e = .ok (.returned, w', o') → Fits o' → Reach fl o' (ho ++ [.spawned e true])
  | moveComponentsOut {w h o ho src dst r w' o'} : Reach fl w h → Reach fl o ho →
      w.moveComponents fl o src dst = .ok (r, w', o') → Reach fl w' h
  | moveComponentsIn {w h o ho src dst r w' o'} : Reach fl w h → Reach fl o ho →
      w.moveComponents fl o src dst = .ok (r, w', o') → Reach fl o' ho
  | cloneEntityIn {w h o ho e o'} (cl : Nat → V → V) : Reach fl w h → Reach fl o ho → FreeFor o e →
      w.cloneEntityTo fl cl o e = .ok (.returned, o') → Fits o' → Reach fl o' (ho ++ [.spawned e true])
  | cloneComponentsIn {w h o ho src dst r o'} (cl : Nat → V → V) : Reach fl w h → Reach fl o ho →
      w.cloneComponentsTo fl cl o src dst = .ok (r, o') → Reach fl o' ho
  /-- `clone_storages_to` a world without components in the storages that are not replaced. -/
  | cloneStoragesIn {w h o ho} (cl : Nat → V → V) : Reach fl w h → Reach fl o ho →
      (∀ k s, lookupK o.stos k = some s → (∃ t, lookupK w.stos k = some t ∧ t.canClone = true) ∨ s.dense = []) →
      Reach fl (w.cloneStoragesTo fl cl o) h

end Verif.WSpec

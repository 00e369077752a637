import Verif.Model.WorldUnwind
import Verif.Spec.Unwind
import Verif.Spec.World

/-!
# Worlds whose callbacks or destructors panic, driven through their API

`PReach fl w I`: the world `w` can be reached from an empty one by calls of the API, in any number and any
order, each of which may have been cut short by a panic in a callback, a closure or a destructor, which the
caller caught; `I` are the ids handed out so far. Unlike in `Verif/Spec/World.lean` the calls that leave
components to dead entities are allowed too: `spawn` over an alive entity, insertions for dead ids through
views, `EntitiesViewMut::delete_unchecked`.

Left out are the two calls after which the next call can read out of bounds: `clear` when the `on_deletion`
callback panics (`C73_clear_fails`) and `bulk_add_entity` when the iterator panics (`C72_bulk_fails`).
-/
namespace Verif.WSpec
open StoSpec (Valid PEvent)
variable {V : Type}

/-- Calls on a view, finished or not, that insert nothing. -/
def PInsertsNothing : PEvent V → Prop
  | .done ev => InsertsNothing ev
  | .cut (.insert _ _ _) => False
  | .cut _ => True

inductive PReach (fl : Flags) : World V → List EId → Prop where
  | init (hook : Bool) : PReach fl { World.new with ents := { Entities.new with hook := hook } } []
  | addEntity {w I p cs e out w'} : PReach fl w I → w.addEntityU fl p cs = .ok (e, out, w') → Fits w' →
      PReach fl w' (I ++ [e])
  | bulkAddEntity {w I cols n es w'} : PReach fl w I → (cols.map Prod.fst).Nodup → cols ≠ [] →
      (∀ c ∈ cols, c.2.length = n) → w.bulkAddEntity fl cols n = .ok (es, w') → Fits w' →
      PReach fl w' (I ++ es)
  | addComponent {w I p e cs out w'} : PReach fl w I → w.addComponentU fl p e cs = .ok (out, w') →
      PReach fl w' I
  | deleteEntity {w I hp p e out w'} : PReach fl w I → Valid e → w.deleteEntityU hp p e = .ok (out, w') →
      PReach fl w' I
  | strip {w I p e out w'} : PReach fl w I → Valid e → w.stripU p e = .ok (out, w') → PReach fl w' I
  | bulkStrip {w I p es out w'} : PReach fl w I → (∀ e ∈ es, Valid e) →
      w.bulkStripU p es = .ok (out, w') → PReach fl w' I
  | retainStorage {w I p e keep out w'} : PReach fl w I → Valid e →
      w.retainStorageByIdU p e keep = .ok (out, w') → PReach fl w' I
  | remove {w I p ks e out w'} : PReach fl w I → Valid e → w.removeU fl p ks e = .ok (out, w') →
      PReach fl w' I
  | deleteComponent {w I p ks e out w'} : PReach fl w I → Valid e →
      w.deleteComponentU fl p ks e = .ok (out, w') → PReach fl w' I
  | deleteAny {w I p q ks order out w'} : PReach fl w I → w.deleteAnyU p q ks order = .ok (out, w') →
      PReach fl w' I
  /-- `on_deletion` does not panic, destructors may. -/
  | clear {w I m hp p out w'} : PReach fl w I → (∀ e ∈ w.ents.data, e.gen < 65533) →
      w.clearU m hp p = .ok (out, w') → out ≠ .unwound .hook → PReach fl w' I
  /-- Over an alive entity or not; the id counts as handed out when the call returns `true`. -/
  | spawn {w I e b w'} : PReach fl w I → Valid e → w.spawn e = .ok (b, w') → Fits w' →
      PReach fl w' (I ++ if b then [e] else [])
  /-- `EntitiesViewMut::delete_unchecked`. -/
  | deleteUnchecked {w I hp e out ents} : PReach fl w I → Valid e →
      w.ents.deleteUncheckedU e hp = .ok (out, ents) → PReach fl { w with ents := ents } I
  | create {w I} (k : Nat) : PReach fl w I → PReach fl (w.create fl k) I
  /-- Any call on a storage through a view that inserts nothing. -/
  | view {w I k s ev s'} : PReach fl w I → lookupK w.stos k = some s → StoSpec.PStep s ev s' →
      PInsertsNothing ev → PReach fl (w.put k s') I
  /-- An insertion through a view, for an id handed out before, dead or alive. -/
  | viewAdd {w I k s e v now hp dp out s'} : PReach fl w I → lookupK w.stos k = some s → e ∈ I →
      s.insertU e v now hp dp = .ok (out, s') → PReach fl (w.put k s') I
  | registerClone {w I} (k : Nat) : PReach fl w I → PReach fl (w.registerClone fl k) I
  /-- `move_entity`, for the source and for the other world. There the id counts as handed out if it is
  alive afterwards. -/
  | moveOut {w o I J hp p q e out w' o'} : PReach fl w I → PReach fl o J →
      w.moveEntityU fl hp p q o e = .ok (out, w', o') → PReach fl w' I
  | moveIn {w o I J hp p q e out w' o'} : PReach fl w I → PReach fl o J →
      w.moveEntityU fl hp p q o e = .ok (out, w', o') →
      PReach fl o' (J ++ if o'.isAlive e then [e] else [])
  /-- `move_components`, for both worlds. -/
  | moveComponentsOut {w o I J p q src dst out w' o'} : PReach fl w I → PReach fl o J →
      w.moveComponentsU fl p q o src dst = .ok (out, w', o') → PReach fl w' I
  | moveComponentsIn {w o I J p q src dst out w' o'} : PReach fl w I → PReach fl o J →
      w.moveComponentsU fl p q o src dst = .ok (out, w', o') → PReach fl o' J
  /-- `clone_entity_to` and `clone_components_to`, for the other world. -/
  | cloneEntityTo {w o I J cl c q e out o'} : PReach fl w I → PReach fl o J →
      w.cloneEntityToU fl cl c q o e = .ok (out, o') →
      PReach fl o' (J ++ if o'.isAlive e then [e] else [])
  | cloneComponentsTo {w o I J cl c q src dst out o'} : PReach fl w I → PReach fl o J →
      w.cloneComponentsToU fl cl c q o src dst = .ok (out, o') → PReach fl o' J
  /-- `clone_storages_to`, for the other world, if its entities are replaced: the call returned, or the entities are the
  first storage it visits. The storages that are not replaced have no components. -/
  | cloneStorages {w o I J cl c d before after out o'} : PReach fl w I → PReach fl o J →
      (before ++ after).Perm w.stos → w.cloneStoragesToU fl cl c d before after o = (out, o') →
      (out = .returned () ∨ before = []) →
      (∀ k s, lookupK o.stos k = some s →
        (out = .returned () ∧ ∃ t, lookupK w.stos k = some t ∧ t.canClone = true) ∨ s.dense = []) → PReach fl o' I
  | onDeletion {w I} : PReach fl w I → PReach fl { w with ents := w.ents.onDeletion } I
  | takeOnDeletion {w I} : PReach fl w I → PReach fl { w with ents := w.ents.takeOnDeletion } I
  | clock {w I} (c : Nat) : PReach fl w I → PReach fl { w with counter := c } I
  | rehash {w I} (l : List (Nat × SparseSet V)) : PReach fl w I → w.stos.Perm l →
      PReach fl { w with stos := l } I

end Verif.WSpec

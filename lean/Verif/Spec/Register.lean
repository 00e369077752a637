import Verif.Model.Register
import Verif.Spec.Storage

/-!
# What can happen to a world after a workload was added

`Call fl w w'`: one call of the API leads from `w` to `w'`, whatever it returned and also when it panicked after changing
something. All calls of `Verif/Model/World.lean` and all calls on views are there except one: `clone_storages_to` when
this world is the target, which replaces storages (see `C77_clone_fails`).
-/
namespace Verif.Reg
open Sched Track
variable {V : Type}

inductive Call (fl : Flags) : World V → World V → Prop where
  | addEntity {w cs e r w'} : w.addEntity fl cs = .ok (e, r, w') → Call fl w w'
  | bulkAddEntity {w cols n es w'} : w.bulkAddEntity fl cols n = .ok (es, w') → Call fl w w'
  | addComponent {w e cs r w'} : w.addComponent fl e cs = .ok (r, w') → Call fl w w'
  | deleteEntity {w e b w'} : w.deleteEntity e = .ok (b, w') → Call fl w w'
  | strip {w e w'} : w.strip e = .ok w' → Call fl w w'
  | bulkStrip {w es w'} : w.bulkStrip es = .ok w' → Call fl w w'
  | retainStorage {w e keep w'} : w.retainStorage e keep = .ok w' → Call fl w w'
  | retain {σ : Type} {w k w'} {st st' : σ} {f : σ → EId → V → Bool × σ} : w.retain k st f = .ok (st', w') → Call fl w w'
  | remove {w ks e rs w'} : w.remove fl ks e = .ok (rs, w') → Call fl w w'
  | deleteComponent {w ks e b w'} : w.deleteComponent fl ks e = .ok (b, w') → Call fl w w'
  | deleteAny {w ks order w'} : w.deleteAny ks order = .ok w' → Call fl w w'
  | clear {w w'} : w.clear = .ok w' → Call fl w w'
  | spawn {w e b w'} : w.spawn e = .ok (b, w') → Call fl w w'
  | create {w} (k : Nat) : Call fl w (w.create fl k)
  | registerClone {w} (k : Nat) : Call fl w (w.registerClone fl k)
  /-- Any call on a storage through a view. -/
  | view {w k s ev s'} : lookupK w.stos k = some s → StoSpec.Step s ev s' → Call fl w (w.put k s')
  | clearAllRemovedAndDeleted {w} : Call fl w w.clearAllRemovedAndDeleted
  | clearAllRemovedAndDeletedOlderThan {w} (t : Nat) : Call fl w (w.clearAllRemovedAndDeletedOlderThan t)
  | clearAllInserted {w} : Call fl w w.clearAllInserted
  | clearAllModified {w} : Call fl w w.clearAllModified
  | clearAllInsertedAndModified {w} : Call fl w w.clearAllInsertedAndModified
  /-- Calls on the entities only. -/
  | entities {w} (ents : Entities) : Call fl w { w with ents }
  /-- Other calls take timestamps. -/
  | clock {w} (c : Nat) : Call fl w { w with counter := c }
  /-- The hash map of storages may be iterated in another order. -/
  | rehash {w} (l : List (Nat × SparseSet V)) : (∀ k, lookupK l k = lookupK w.stos k) → Call fl w { w with stos := l }
  | moveOut {w o : World V} {e r w' o'} : w.moveEntity fl o e = .ok (r, w', o') → Call fl w w'
  | moveIn {w o : World V} {e r w' o'} : w.moveEntity fl o e = .ok (r, w', o') → Call fl o o'
  | moveComponentsOut {w o : World V} {src dst r w' o'} : w.moveComponents fl o src dst = .ok (r, w', o') → Call fl w w'
  | moveComponentsIn {w o : World V} {src dst r w' o'} : w.moveComponents fl o src dst = .ok (r, w', o') → Call fl o o'
  | cloneEntityIn {w o : World V} {e r o'} (cl : Nat → V → V) : w.cloneEntityTo fl cl o e = .ok (r, o') → Call fl o o'
  | cloneComponentsIn {w o : World V} {src dst r o'} (cl : Nat → V → V) : w.cloneComponentsTo fl cl o src dst = .ok (r, o') → Call fl o o'
  /-- Another workload is added, successfully or not, or `apply_tracking` is called. -/
  | enable {w held l} : Call fl w (enableAll fl held l w).1

/-- Any number of calls. -/
inductive Later (fl : Flags) (w : World V) : World V → Prop where
  | refl : Later fl w w
  | call {w1 w2} : Later fl w w1 → Call fl w1 w2 → Later fl w w2

/-- The view of tracking type `kind` of the components `k` can be borrowed in the world when nobody else uses the
storage. -/
def Grants (fl : Flags) (w : World V) (k : Nat) (kind : Kind) : Prop :=
  ∀ lastRun current, (borrowView kind (w.stoOr fl k) lastRun current).isSome = true

/-- `s'` is `s` with more tracking: the same components, logs and callbacks. -/
structure Same (s s' : SparseSet V) : Prop where
  sparse : s'.sparse = s.sparse
  dense : s'.dense = s.dense
  data : s'.data = s.data
  deleted : s'.deletionData = s.deletionData
  removed : s'.removalData = s.removalData
  lastIns : s'.lastInsert = s.lastInsert
  lastMod : s'.lastModified = s.lastModified
  hooks : s'.hookIns = s.hookIns ∧ s'.hookRem = s.hookRem ∧ s'.logIns = s.logIns ∧ s'.logRem = s.logRem
  clone : s'.canClone = s.canClone
  ins : s.trkIns = true → s'.insertionData = s.insertionData
  mod : s.trkMod = true → s'.modificationData = s.modificationData

/-- A workload on component storages: each of its systems is a function of views whose tracking types are those collected
when the system was made (`ofParams`), functions and conditions use the world through the API, and the conditions never
fail on tracking (nothing enables tracking for them, see `C77_condition_fails`). -/
structure Tame {ε : Type} (fl : Flags) (wl : Workload (World V) (ViewErr ε)) : Prop where
  systems : ∀ s ∈ wl.systems, ∃ ps lastRun body, s.fn = sysFn fl lastRun ps body ∧
    s.tracking = ps.filterMap Param.enable ∧ ∀ vs w, Later fl w (body vs w).1
  conditions : ∀ c, (wl.runIf = some c ∨ ∃ s ∈ wl.systems, s.runIf = some c) → ∀ w, Later fl w (c w).1 ∧
    ∀ k, (c w).2 ≠ .error (.trackingNotEnabled k)

end Verif.Reg

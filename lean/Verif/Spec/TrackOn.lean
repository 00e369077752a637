import Verif.Model.TrackOn
import Verif.Props.SparseSet
import Verif.Spec.World

/-!
# What turning tracking on at run time does to a storage (C102)
-/
namespace Verif.WSpec
variable {V : Type}

/-- What the documentation of each call says it turns on. -/
structure Wanted where
  insertion : Bool
  modification : Bool
  deletion : Bool
  removal : Bool

def wanted : TrackCall → Wanted
  | .insertion => ⟨true, false, false, false⟩
  | .modification => ⟨false, true, false, false⟩
  | .deletion => ⟨false, false, true, false⟩
  | .removal => ⟨false, false, false, true⟩
  | .all => ⟨true, true, true, true⟩

/-- From `s` to `s'`, what is wanted was turned on and nothing else changed. A component that was there before shows timestamp 0 for
what is newly tracked, the timestamp of a component that was never inserted or modified. -/
structure TurnedOn (x : Wanted) (s s' : SparseSet V) : Prop where
  tracks : s'.trkIns = (s.trkIns || x.insertion) ∧ s'.trkMod = (s.trkMod || x.modification) ∧
    s'.trkDel = (s.trkDel || x.deletion) ∧ s'.trkRem = (s.trkRem || x.removal)
  shows : ∀ e v i m, e.gen < 65535 → s.observe e = .ok (some (v, i, m)) →
    s'.observe e = .ok (some (v, if x.insertion && !s.trkIns then some 0 else i, if x.modification && !s.trkMod then some 0 else m))
  absent : ∀ e, e.gen < 65535 → s.observe e = .ok none → s'.observe e = .ok none
  order : s'.dense = s.dense ∧ s'.data = s.data
  deleted : s'.deletionData = s.deletionData
  removed : s'.removalData = s.removalData
  clears : s'.lastInsert = s.lastInsert ∧ s'.lastModified = s.lastModified
  callbacks : s'.hookIns = s.hookIns ∧ s'.hookRem = s.hookRem
  calls : s'.logIns = s.logIns ∧ s'.logRem = s.logRem

end Verif.WSpec

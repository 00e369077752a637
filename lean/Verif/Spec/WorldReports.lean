import Verif.Props.SparseSet
import Verif.Spec.World

/-!
# What calls on entities leave in the records of the storages (C95)

A storage shows, besides its components: when each was inserted and modified (`observe`), which were removed and deleted and when
(`removalData`, `deletionData`), and it calls `on_insertion` and `on_removal` (`logIns`, `logRem` are the calls so far). Each of
`Deleted`, `Removed` and `Gained` says what one storage shows before (`s`) and after (`s'`) one component went or came.
-/
namespace Verif.WSpec
variable {V : Type}

/-- The component of `e`: at most one. -/
def had (s : SparseSet V) (e : EId) : List V :=
  match s.get e with
  | .ok (some v) => [v]
  | _ => []

/-- `x` when `b`. -/
def whenOn {α : Type} (b : Bool) (x : List α) : List α := if b then x else []

/-- Nothing is switched on or off, no clear is recorded and no entity but `e` is concerned. -/
structure OnlyFor (e : EId) (s s' : SparseSet V) : Prop where
  others : ∀ x, x ≠ e → x.gen < 65535 → s'.observe x = s.observe x
  tracks : s'.trkIns = s.trkIns ∧ s'.trkMod = s.trkMod ∧ s'.trkDel = s.trkDel ∧ s'.trkRem = s.trkRem
  clears : s'.lastInsert = s.lastInsert ∧ s'.lastModified = s.lastModified
  callbacks : s'.hookIns = s.hookIns ∧ s'.hookRem = s.hookRem

/-- The component of `e`, if there was one, was deleted at `now`. -/
structure Deleted (e : EId) (now : Nat) (s s' : SparseSet V) : Prop extends OnlyFor e s s' where
  gone : s'.observe e = .ok none
  deleted : s'.deletionData = s.deletionData ++ whenOn s.trkDel ((had s e).map fun v => (e, now, v))
  removed : s'.removalData = s.removalData
  calledIns : s'.logIns = s.logIns
  calledRem : s'.logRem = s.logRem ++ whenOn s.hookRem ((had s e).map fun v => (e, v))

/-- The component of `e`, if there was one, was removed at `now`. -/
structure Removed (e : EId) (now : Nat) (s s' : SparseSet V) : Prop extends OnlyFor e s s' where
  gone : s'.observe e = .ok none
  deleted : s'.deletionData = s.deletionData
  removed : s'.removalData = s.removalData ++ whenOn s.trkRem ((had s e).map fun _ => (e, now))
  calledIns : s'.logIns = s.logIns
  calledRem : s'.logRem = s.logRem ++ whenOn s.hookRem ((had s e).map fun v => (e, v))

/-- `e` was given `v` at `now`: an insertion if it had no component, a modification if it had one. -/
structure Gained (e : EId) (v : V) (now : Nat) (s s' : SparseSet V) : Prop extends OnlyFor e s s' where
  new : s.observe e = .ok none →
    s'.observe e = .ok (some (v, if s.trkIns then some now else none, if s.trkMod then some 0 else none))
  replaced : ∀ v0 i m, s.observe e = .ok (some (v0, i, m)) →
    s'.observe e = .ok (some (v, i, if s.trkMod then some now else none))
  deleted : s'.deletionData = s.deletionData
  removed : s'.removalData = s.removalData
  calledIns : s'.logIns = s.logIns ++ whenOn s.hookIns [(e, v)]
  calledRem : s'.logRem = s.logRem

/-- One deletion after the other, of the entities listed and at the times listed. -/
inductive DeletedEach : List (EId × Nat) → SparseSet V → SparseSet V → Prop where
  | nil (s) : DeletedEach [] s s
  | cons {e now l s s1 s'} (first : Deleted e now s s1) (rest : DeletedEach l s1 s') : DeletedEach ((e, now) :: l) s s'

/-- All components were deleted at `now`, in some order. -/
structure Emptied (now : Nat) (s s' : SparseSet V) (rows : List (EId × V)) : Prop where
  gone : ∀ x, x.gen < 65535 → s'.observe x = .ok none
  once : (rows.map Prod.fst).Nodup
  all : ∀ x v, x.gen < 65535 → ((x, v) ∈ rows ↔ s.get x = .ok (some v))
  deleted : s'.deletionData = s.deletionData ++ whenOn s.trkDel (rows.map fun x => (x.1, now, x.2))
  removed : s'.removalData = s.removalData
  calledIns : s'.logIns = s.logIns
  /-- `on_removal` is not called (C21). -/
  calledRem : s'.logRem = s.logRem
  tracks : s'.trkIns = s.trkIns ∧ s'.trkMod = s.trkMod ∧ s'.trkDel = s.trkDel ∧ s'.trkRem = s.trkRem
  clears : s'.lastInsert = s.lastInsert ∧ s'.lastModified = s.lastModified
  callbacks : s'.hookIns = s.hookIns ∧ s'.hookRem = s.hookRem

end Verif.WSpec

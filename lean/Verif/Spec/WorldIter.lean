import Verif.Spec.Iter
import Verif.Spec.World

/-!
# Iterating over the storages of a world

What a query should yield, told by single lookups only: `get`, `is_inserted` and `is_modified` of the views
the query is made of.
-/
namespace Verif.WorldIter
open StoSpec IterSpec Iter
variable {V : Type}

/-- A query as it is written: made of views. -/
inductive VQry (V : Type) where
  | view (v : Tracking.View V)
  | ids (l : List EId)
  | opt (v : Tracking.View V)
  | absent (v : Tracking.View V) (excl : Bool)
  | flag (k : Flag) (neg : Bool) (v : Tracking.View V)
  | or (a b : VQry V)
  | tup (l : List (VQry V))

mutual
/-- The query the iterator is built from: each view lends a window (`Win.ofView`). -/
def VQry.qry : VQry V → Qry V
  | .view v => .view (Win.ofView v)
  | .ids l => .ids l
  | .opt v => .opt (Win.ofView v)
  | .absent v m => .absent (Win.ofView v) m
  | .flag k neg v => .flag k neg (Win.ofView v)
  | .or a b => .or a.qry b.qry
  | .tup l => .tup (VQry.qrys l)
def VQry.qrys : List (VQry V) → List (Qry V)
  | [] => []
  | q :: l => q.qry :: VQry.qrys l
end

/-- `view.get(e)`. -/
def comp (v : Tracking.View V) (e : EId) : Option V :=
  match v.set.get e with
  | .ok c => c
  | .error _ => none

/-- `view.is_inserted(e)`, `view.is_modified(e)`, or one of both. -/
def flagged (k : Flag) (v : Tracking.View V) (e : EId) : Prop :=
  match k with
  | .inserted => v.isInserted e = .ok true
  | .modified => v.isModified e = .ok true
  | .either => v.isInserted e = .ok true ∨ v.isModified e = .ok true
instance (k : Flag) (v : Tracking.View V) (e : EId) : Decidable (flagged k v e) := by
  unfold flagged; cases k <;> infer_instance

mutual
/-- The item of entity `e`, if it matches the query.
- a view matches the entities having the component;
- a list of ids matches its members;
- `as_optional` matches everything, `!view` the entities without the component;
- a filter matches the entities having the component of which the view says so (`neg`: does not say so);
- `a | b` prefers `a`;
- a tuple matches when all its members do; `(x,)` is `x`. -/
def seen : VQry V → EId → Option (Out V)
  | .view v, e => (comp v e).map .comp
  | .ids l, e => if e ∈ l then some (.id e) else none
  | .opt v, e => some (.maybe (comp v e))
  | .absent v _, e => if (comp v e).isSome then none else some .unit
  | .flag k false v, e => (comp v e).bind fun c => if flagged k v e then some (.comp c) else none
  | .flag k true v, e => (comp v e).bind fun c => if flagged k v e then none else some (.comp c)
  | .or a b, e =>
    match seen a e with
    | some o => some (.one o)
    | none => (seen b e).map .two
  | .tup [q], e => seen q e
  | .tup l, e => (seenAll l e).map .tup
def seenAll : List (VQry V) → EId → Option (List (Out V))
  | [], _ => some []
  | q :: l, e => (seen q e).bind fun o => (seenAll l e).map (o :: ·)
end

/-- A view of a storage of the world. -/
def Of (wd : World V) (v : Tracking.View V) : Prop := ∃ k : Nat, lookupK wd.stos k = some v.set

/-- The storage tracks what the filter asks for. -/
def SetTracks (k : Flag) (s : SparseSet V) : Prop :=
  match k with
  | .inserted => s.trkIns = true
  | .modified => s.trkMod = true
  | .either => s.trkIns = true ∧ s.trkMod = true

mutual
/-- The queries over storages of the world `wd` that can be iterated (see `IterSpec.Fine`). -/
def Over (wd : World V) : VQry V → Prop
  | .view v | .opt v | .absent v _ => Of wd v
  | .ids l => l.Nodup ∧ ∀ e ∈ l, Valid e
  | .flag k _ v => Of wd v ∧ SetTracks k v.set
  | .or a b => isLeaf a.qry = true ∧ orFree b.qry = true ∧ b.qry.canCaptain = true ∧ b.qry.canSailor = true ∧
      Over wd a ∧ Over wd b
  | .tup l => Overs wd l ∧ (∃ q ∈ VQry.qrys l, q.canCaptain = true) ∧
      ((VQry.qrys l).filter (fun q => !q.canSailor)).length ≤ 1
def Overs (wd : World V) : List (VQry V) → Prop
  | [] => True
  | q :: l => Over wd q ∧ Overs wd l
end

end Verif.WorldIter

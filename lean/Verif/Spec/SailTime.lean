import Verif.Spec.Iter
import Verif.Model.SailTime

/-!
# Specification: queries whose sail times do not overflow
-/
namespace Verif.IterSpec
open StoSpec TrkSpec Iter
variable {V : Type}

mutual
/-- The number of views and lists of ids in a query. -/
def leaves : Qry V → Nat
  | .or a b => leaves a + leaves b
  | .tup l => leavess l
  | _ => 1
def leavess : List (Qry V) → Nat
  | [] => 0
  | q :: l => leaves q + leavess l
end

mutual
/-- No `!&mut view` inside. -/
def noExclusive : Qry V → Bool
  | .absent _ excl => !excl
  | .or a b => noExclusive a && noExclusive b
  | .tup l => noExclusives l
  | _ => true
def noExclusives : List (Qry V) → Bool
  | [] => true
  | q :: l => noExclusive q && noExclusives l
end

/-- The query is `!&mut view`. -/
def isExclusive : Qry V → Bool
  | .absent _ true => true
  | _ => false

mutual
/-- In no tuple is there a `!&mut view` deeper than as a member of that tuple. -/
def flatExclusive : Qry V → Bool
  | .or a b => flatExclusive a && flatExclusive b
  | .tup l => flatExclusives l
  | _ => true
def flatExclusives : List (Qry V) → Bool
  | [] => true
  | q :: l => (noExclusive q || isExclusive q) && flatExclusives l
end

mutual
/-- The lists of ids have less than 2^48 members, like a world has entities. -/
def ShortIds : Qry V → Prop
  | .ids l => l.length < 2 ^ 48
  | .or a b => ShortIds a ∧ ShortIds b
  | .tup l => ShortIdss l
  | _ => True
def ShortIdss : List (Qry V) → Prop
  | [] => True
  | q :: l => ShortIds q ∧ ShortIdss l
end

/-- The numbers of at most 24 significant bits. -/
def IsF32 (y : Nat) : Prop := ∃ m k, m ≤ 2 ^ 24 ∧ y = m * 2 ^ k

end Verif.IterSpec

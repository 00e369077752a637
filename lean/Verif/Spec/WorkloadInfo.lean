import Verif.Spec.Schedule

/-!
# Specification of the information about workloads

What the descriptions returned with a workload should say, in terms of the systems of the workload.
-/
namespace Verif.Sched

variable {W ε : Type}

/-- The number a scheduler gives to the function of a type: the entry of `lookup_table`. -/
def Scheduler.number (sch : Scheduler W ε) (t : Nat) : Option Nat :=
  (sch.lookup.find? fun p => p.1 == t).map (·.2)

/-- The reported reason holds for a system that accesses `s.borrows` and is in batch `b`: some system of an earlier
batch has the reported number and the two reported accesses exclude each other. -/
inductive Reason (c : Created W ε) (w : Workload W ε) (s : WSys W ε) (b : Nat) : Conflict → Prop
  | borrow {q k n : Nat} {u : WSys W ε} {x y : TypeInfo} : w.systems[q]? = some u → c.inBatch q k → k < b →
      c.sch.number u.typeId = some n → x ∈ s.borrows → y ∈ u.borrows → Clash x y → Reason c w s b (.borrow x n y)
  | thread {q k n : Nat} {u : WSys W ε} {x y : TypeInfo} : w.systems[q]? = some u → c.inBatch q k → k < b →
      c.sch.number u.typeId = some n → x ∈ s.borrows → y ∈ u.borrows → x.threadSafe = false → y.threadSafe = false →
      Reason c w s b (.otherNotSendSync n y)

/-- `i` describes the system `s`, at position `p` of the workload and in batch `b`. -/
structure Describes (c : Created W ε) (w : Workload W ε) (p : Nat) (s : WSys W ε) (b : Nat) (i : SystemInfo) : Prop where
  batch : c.inBatch p b
  name : i.name = s.name
  borrow : i.borrow = s.borrows
  /-- the number is the one of the function -/
  uniqueId : c.sch.number s.typeId = some i.uniqueId
  /-- `after`: the positions of the systems it has to run after -/
  after : ∀ j, j ∈ i.after ↔ Explicit w j p ∨ Nearest w j p
  /-- `after_all`: positions of tagged systems, with a label of the system's own list that tags them -/
  afterAll_real : ∀ q l, Constraint.mk q l ∈ i.afterAll →
    q ≠ p ∧ l ∈ s.afterAll ∧ ∃ u, w.systems[q]? = some u ∧ l ∈ u.tags
  afterAll_all : ∀ (q : Nat) u l, w.systems[q]? = some u → q ≠ p → l ∈ s.afterAll → l ∈ u.tags →
    ∃ l', Constraint.mk q l' ∈ i.afterAll
  afterAll_once : (i.afterAll.map (·.otherSystem)).Pairwise (· < ·)
  /-- `before_all`: numbers of the functions of tagged systems -/
  beforeAll_real : ∀ n l, Constraint.mk n l ∈ i.beforeAll →
    ∃ (q : Nat) (u : WSys W ε), q ≠ p ∧ w.systems[q]? = some u ∧ c.sch.number u.typeId = some n ∧ l ∈ s.beforeAll ∧ l ∈ u.tags
  beforeAll_all : ∀ (q : Nat) u l, w.systems[q]? = some u → q ≠ p → l ∈ s.beforeAll → l ∈ u.tags →
    ∃ n l', c.sch.number u.typeId = some n ∧ l' ∈ u.tags ∧ Constraint.mk n l' ∈ i.beforeAll
  /-- a reported conflict is real -/
  reason : ∀ f, i.conflict = some f → Reason c w s b f
  /-- an ordering that comes from a conflict is reported as a conflict -/
  told : (∃ q, Nearest w q p) → i.conflict ≠ none

end Verif.Sched

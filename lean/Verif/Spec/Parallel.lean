import Verif.Spec.Registry

/-!
# Systems that only touch what they declare

A world is a value for each storage. `AllStorages` stands for all of them.
-/
namespace Verif.Sched

variable {V ε : Type}

/-- The storages a list of views gives access to. -/
def Reads (bs : List TypeInfo) (s : Nat) : Prop := ∃ b ∈ bs, b.storage = s ∨ b.storage = allStorages

/-- The storages a list of views gives exclusive access to. -/
def Writes (bs : List TypeInfo) (s : Nat) : Prop :=
  ∃ b ∈ bs, b.exclusive = true ∧ (b.storage = s ∨ b.storage = allStorages)

/-- The views see no difference between the two worlds. -/
def Agree (bs : List TypeInfo) (w w' : Nat → V) : Prop := ∀ s, Reads bs s → w s = w' s

/-- Every access of the program is covered by the views: what it does depends only on what it can read and it changes only
what it can write. -/
inductive Prog.Within (bs : List TypeInfo) : Prog (Nat → V) ε → Prop
  | done (r) : Prog.Within bs (.done r)
  | act {u k} : (∀ w s, ¬ Writes bs s → u w s = w s) → (∀ w w', Agree bs w w' → Agree bs (u w) (u w')) →
      (∀ w w', Agree bs w w' → k w = k w') → (∀ w, Prog.Within bs (k w)) → Prog.Within bs (.act u k)

/-- Every access of the condition is covered by the views: what it answers and what it changes depend only on what it can read, and it
changes only what it can write. -/
structure CondWithin (bs : List TypeInfo) (c : Option (Cond (Nat → V) ε)) : Prop where
  frame : ∀ w s, ¬ Writes bs s → (evalC c w).1 s = w s
  out : ∀ w w', Agree bs w w' → (evalC c w).2 = (evalC c w').2
  agree : ∀ w w', Agree bs w w' → Agree bs (evalC c w).1 (evalC c w').1

/-- The workload's systems are programs within their views, and so are their conditions, within the views of their system. -/
structure Disciplined (progOf : Nat → Prog (Nat → V) ε) (w : Workload (Nat → V) ε) : Prop where
  fn : ∀ s ∈ w.systems, s.fn = (progOf s.typeId).run
  within : ∀ s ∈ w.systems, (progOf s.typeId).Within s.borrows
  cond : ∀ s ∈ w.systems, CondWithin s.borrows s.runIf

/-- Both access something that one of them may write. -/
inductive Overlap (a b : TypeInfo) : Prop
  | share : a.storage = b.storage → (a.exclusive = true ∨ b.exclusive = true) → Overlap a b
  | allLeft : a.storage = allStorages → Overlap a b
  | allRight : b.storage = allStorages → Overlap a b

/-- The workload's systems are programs within their views, and their conditions are within views of their own. If nothing in the views of
two systems keeps them from running at the same time, then the views of the condition of the one overlap neither with the views of the other
nor with those of its condition. -/
structure DisciplinedOwn (progOf : Nat → Prog (Nat → V) ε) (own : WSys (Nat → V) ε → List TypeInfo) (w : Workload (Nat → V) ε) : Prop where
  fn : ∀ s ∈ w.systems, s.fn = (progOf s.typeId).run
  within : ∀ s ∈ w.systems, (progOf s.typeId).Within s.borrows
  cond : ∀ s ∈ w.systems, CondWithin (own s) s.runIf
  apart : ∀ {a b : Nat} {s s' : WSys (Nat → V) ε}, a ≠ b → w.systems[a]? = some s → w.systems[b]? = some s' → ¬ Conflicts s s' →
    ∀ x ∈ own s, (∀ y ∈ s'.borrows, ¬ Overlap x y) ∧ ∀ y ∈ own s', ¬ Overlap x y

end Verif.Sched

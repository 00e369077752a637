import Verif.Model.WorldUnwind

/-!
# `par_strip`: one task per storage, on the threads of the pool

Models `src/all_storages/mod.rs:383-413` (`src/world.rs:1098-1106` calls it). `par_iter_mut().for_each` gives
each storage to one task; a task deletes the ids in order, all of them with the timestamp taken before.
Tasks run in any order and interleave in any way. Each has the only reference to its storage, so a
`Storage::delete` is one step here.

A task whose callback or destructor panics ends there. rayon passes the panic on to the caller once the
other tasks are over; a task that has not begun by then may never begin.

Simplification: what callbacks do to the rest of the program is not part of the state.
-/
namespace Verif.World
variable {V : Type}

/-- `par_strip` while it runs. `todo k` are the ids the task of storage `k` still has to delete and `pos k`
how many it has deleted; `unwinding` says whether a task panicked. -/
structure Stripping (V : Type) where
  stos : List (Nat × SparseSet V)
  todo : Nat → List EId
  pos : Nat → Nat
  unwinding : Bool

/-- `src/all_storages/mod.rs:409-412`. -/
def Stripping.start (w : World V) (es : List EId) : Stripping V :=
  { stos := w.stos, todo := fun _ => es, pos := fun _ => 0, unwinding := false }

/-- The state in which `par_strip` leaves the world: `get_current` (line 409) has moved the counter. -/
def Stripping.world (t : Stripping V) (w : World V) : World V := { w.tick with stos := t.stos }

/-- The task of storage `k` deletes its next id, `src/all_storages/mod.rs:402-404`. -/
def Stripping.next (t : Stripping V) (k : Nat) (rest : List EId) (s : SparseSet V) : Stripping V :=
  { t with
    stos := setK t.stos k s
    todo := fun j => if j = k then rest else t.todo j
    pos := fun j => if j = k then t.pos j + 1 else t.pos j }

/-- One step of one task; `p k i` says which user code panics while storage `k` deletes the `i`-th id. -/
inductive Stripping.Step (p : Nat → Panics) (now : Nat) : Stripping V → Stripping V → Prop where
  | delete {t k s e rest s'} : lookupK t.stos k = some s → t.todo k = e :: rest →
      stoDeleteU (p k (t.pos k)) e now s = .ok (.returned (), s') → Step p now t (t.next k rest s')
  | unwind {t k s e rest u s'} : lookupK t.stos k = some s → t.todo k = e :: rest →
      stoDeleteU (p k (t.pos k)) e now s = .ok (.unwound u, s') →
      Step p now t { t.next k [] s' with unwinding := true }
  | skip {t k s} : lookupK t.stos k = some s → t.unwinding = true → t.pos k = 0 → t.todo k ≠ [] →
      Step p now t { t with todo := fun j => if j = k then [] else t.todo j }

inductive Stripping.Steps (p : Nat → Panics) (now : Nat) : Nat → Stripping V → Stripping V → Prop where
  | refl (t) : Steps p now 0 t t
  | tail {n t u v} : Steps p now n t u → Stripping.Step p now u v → Steps p now (n + 1) t v

/-- All tasks are over: only then does `par_strip` return, or unwind. -/
def Stripping.Done (t : Stripping V) : Prop := ∀ k s, lookupK t.stos k = some s → t.todo k = []

end Verif.World

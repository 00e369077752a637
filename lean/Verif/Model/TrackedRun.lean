import Verif.Model.RunBatches
import Verif.Model.Tracking

/-!
# Workloads whose systems track changes

A world with the clock of `World::get_current`, the time of the last run of each system and of each condition, and the time each
component was last changed. The systems of a batch run at the same time: taking the time, remembering it and each access are separate
steps, any of which may be interleaved with steps of the other systems. The steps are those of `Verif/Model/RunBatches.lean`, over
this kind of world.

`log` is not part of the code: it records what happened, the newest entry first.
-/
namespace Verif.Sched.Told
open Verif.Tracking

/-- Who has a time of the last run: the closure made for a system (`src/scheduler/into_workload_system.rs:145`; one for all systems of
a `TypeId`, since a system is stored once) or for a condition (`src/scheduler/into_workload_run_if.rs:83`, `:176`). -/
inductive Who where
  | system (t : Nat)
  | condition (n : Nat)
  deriving DecidableEq, Repr

/-- What happened: a component of a storage was inserted or modified; a system or condition was told that it was changed or that it was
not; a run ended. -/
inductive Ev where
  | wrote (x k : Nat)
  | told (i : Who) (x k : Nat) (b : Bool)
  | ended (i : Who)
  deriving DecidableEq, Repr

/-- The world. `cell x k` is the place `k` of storage `x`: what it holds and when that was inserted (or modified; the two times of one
component are two places here). Time 0 stands for never. -/
structure TW (V : Type) where
  counter : Nat
  last : Who → Nat
  cell : Nat → Nat → V × Nat
  log : List Ev

variable {V ε ρ : Type}

/-- `SparseSet::insert` and writing through `Mut`: the new value and the time (`src/sparse_set/mod.rs` `insert`, `src/r#mut.rs`; their
exact effect on a storage is in `Verif/Model/SparseSet.lean`). -/
def TW.put (w : TW V) (x k : Nat) (v : V) (now : Nat) : TW V :=
  { w with
    cell := fun y m => if y = x ∧ m = k then (v, now) else w.cell y m
    log := .wrote x k :: w.log }

/-- `World::get_current`, `src/world.rs:842-847`: the world after it; the time it returns is the counter before it. -/
def TW.tick (w : TW V) : TW V := { w with counter := w.counter + 1 }

/-- `last_run.swap(current.get(), ..)`, `src/scheduler/into_workload_system.rs:153`: the world after it. -/
def TW.swap (w : TW V) (i : Who) (cur : Nat) : TW V := { w with last := fun j => if j = i then cur else w.last j }

/-- What the body of a system or condition does with its views. `write` is through a `ViewMut`, with the time of the run. `fresh` is
through `AllStorages`, whose methods take a time of their own (`src/all_storages/mod.rs:1232-1237`). `look` reads a component and asks
`is_inserted` / `is_modified` about it. What it does next may depend on all it has seen. -/
inductive TProg (V ρ : Type) where
  | done (r : ρ)
  | write (x k : Nat) (v : V) (next : TProg V ρ)
  | fresh (x k : Nat) (v : V) (next : TProg V ρ)
  | look (x k : Nat) (next : V → Bool → TProg V ρ)

/-- The answer of `is_inserted` / `is_modified` for a view of a run (`src/views/view.rs:212-226`). -/
def TW.ask (w : TW V) (x k last cur : Nat) : Bool := isWithin (w.cell x k).2 last cur

/-- A `look`. -/
def TW.look (w : TW V) (i : Who) (x k last cur : Nat) : TW V := { w with log := .told i x k (w.ask x k last cur) :: w.log }

/-- A write through `AllStorages`. -/
def TW.fresh (w : TW V) (x k : Nat) (v : V) : TW V := w.tick.put x k v w.counter

/-- The end of a run. -/
def TW.finish (w : TW V) (i : Who) : TW V := { w with log := .ended i :: w.log }

/-- The body of a system, one access after the other, with the window of its views (`world_borrow(&world, Some(last_run), current)`). -/
def body (t : Nat) (last cur : Nat) : TProg V (Except ε Unit) → Prog (TW V) ε
  | .done r => .act (fun w => w.finish (.system t)) fun _ => .done r
  | .write x k v p => .act (fun w => w.put x k v cur) fun _ => body t last cur p
  | .fresh x k v p => .act (fun w => w.fresh x k v) fun _ => body t last cur p
  | .look x k p => .act (fun w => w.look (.system t) x k last cur) fun w => body t last cur (p (w.cell x k).1 (w.ask x k last cur))

/-- The second line of the closure, and the body. -/
def swapped (t : Nat) (cur : Nat) (p : TProg V (Except ε Unit)) : Prog (TW V) ε :=
  .act (fun w => w.swap (.system t) cur) fun w => body t (w.last (.system t)) cur p

/-- `system_fn`, `src/scheduler/into_workload_system.rs:151-155`: take the time, remember it, run. A function without parameters does
neither (`:43-46`). -/
inductive Sys (V ε : Type) where
  | plain (r : Except ε Unit)
  | tracked (p : TProg V (Except ε Unit))

def Sys.prog (t : Nat) : Sys V ε → Prog (TW V) ε
  | .plain r => .done r
  | .tracked p => .act TW.tick fun w => swapped t w.counter p

/-- The body of a condition. Nothing runs at the same time as a condition of a workload. -/
def runT (i : Who) (last cur : Nat) : TProg V ρ → TW V → TW V × ρ
  | .done r, w => (w.finish i, r)
  | .write x k v p, w => runT i last cur p (w.put x k v cur)
  | .fresh x k v p, w => runT i last cur p (w.fresh x k v)
  | .look x k p, w => runT i last cur (p (w.cell x k).1 (w.ask x k last cur)) (w.look i x k last cur)

/-- A condition, `src/scheduler/into_workload_run_if.rs:85-89`, `:177-181`. -/
def condition (n : Nat) (p : TProg V (Except ε Bool)) : Cond (TW V) ε := fun w =>
  runT (.condition n) (w.last (.condition n)) w.counter p (w.tick.swap (.condition n) w.counter)

/-- A new world: the counter starts at 1 (`src/world.rs:47`), a run's memory at 0. -/
def TW.new (v : Nat → Nat → V) : TW V := { counter := 1, last := fun _ => 0, cell := fun x k => (v x k, 0), log := [] }

end Verif.Sched.Told

import Verif.Model.RunBatches
import Verif.Model.World

/-!
# Putting a workload in a world, tracking included

Models `src/scheduler/workload.rs:66-85, 436-481, 518-547`, `enable_tracking` of `src/borrow/borrow_info.rs` and of
`src/views/unique_or_*.rs`, and the function made from a system or a condition with its views
(`src/scheduler/into_workload_system.rs:145-155`, `into_workload_run_if.rs:84-91`, `165-171`).

Simplifications: the world of the scheduler is a `World V`, in which unique storages are not present; what other parts
of the program have borrowed while a workload is added is given by `Held`; the last run of a system (an `AtomicU64`) is
a parameter of its function.
-/
namespace Verif.Reg
open Sched Track Tracking

/-- The view parameters of a system: `View`, `ViewMut` and their `NonSend`, `NonSync`, `NonSendSync` variants for the
component of storage `k` with a tracking type, or anything that is not a component view (unique and entity views,
`AllStoragesView(Mut)`). -/
inductive Param where
  | comp (k : Nat) (exclusive threadSafe : Bool) (kind : Kind)
  | other (t : TypeInfo)

/-- `BorrowInfo::borrow_info`, `src/borrow/borrow_info.rs:141-148` and the other impls. -/
def Param.info : Param → TypeInfo
  | .comp k x t _ => { storage := k, exclusive := x, threadSafe := t }
  | .other t => t

/-- `BorrowInfo::enable_tracking`, `src/borrow/borrow_info.rs:149-159` for `View`, 176-186, 203-213, 230-240 for its
variants, 255-265, 282-292, 309-319, 336-346 for `ViewMut`; nothing for all others. -/
def Param.enable : Param → Option (Nat × Kind)
  | .comp k _ _ kind => some (k, kind)
  | .other _ => none

variable {V ε : Type} (fl : Flags)

/-- What a system function can end with besides the error of its body. -/
inductive ViewErr (ε : Type) where
  | trackingNotEnabled (k : Nat)
  | user (e : ε)

/-- `world_borrow` of the views one after the other (`src/borrow/mod.rs:173-191`, `274-302`): the storage is made if it is
missing, then its tracking is checked. No storage is borrowed by anybody else. -/
def borrowAll (lastRun : Option Nat) (current : Nat) : List Param → World V → World V × Except (ViewErr ε) (List (View V))
  | [], w => (w, .ok [])
  | .other _ :: ps, w => borrowAll lastRun current ps w
  | .comp k _ _ kind :: ps, w =>
    match borrowView kind (w.stoOr fl k) lastRun current with
    | none => (w.create fl k, .error (.trackingNotEnabled k))
    | some v =>
      match borrowAll lastRun current ps (w.create fl k) with
      | (w, .error e) => (w, .error e)
      | (w, .ok vs) => (w, .ok (v :: vs))

/-- `src/scheduler/into_workload_system.rs:149-153`: a timestamp, the views, the function. -/
def sysFn (lastRun : Option Nat) (ps : List Param) (body : List (View V) → World V → World V × Except ε Unit) :
    SysFn (World V) (ViewErr ε) := fun w =>
  match borrowAll fl lastRun w.counter ps w.tick with
  | (w, .error e) => (w, .error e)
  | (w, .ok vs) =>
    match body vs w with
    | (w, .ok _) => (w, .ok ())
    | (w, .error e) => (w, .error (.user e))

/-- `src/scheduler/into_workload_run_if.rs:84-91`, `165-171`: the same for a condition. Nothing calls `enable_tracking`
for the views of conditions. -/
def condFn (lastRun : Option Nat) (ps : List Param) (body : List (View V) → Bool) :
    Cond (World V) (ViewErr ε) := fun w =>
  match borrowAll fl lastRun w.counter ps w.tick with
  | (w, .error e) => (w, .error e)
  | (w, .ok vs) => (w, .ok (body vs))

/-- `src/scheduler/into_workload_system.rs:104-170` `into_workload_system` of a function with the views `ps`. -/
def ofParams (typeId : Nat) (ps : List Param) (lastRun : Option Nat)
    (body : List (View V) → World V → World V × Except ε Unit) :
    Except InvalidSystem (WSys (World V) (ViewErr ε)) :=
  WSys.ofFn typeId (ps.map Param.info) (sysFn fl lastRun ps body) (ps.filterMap Param.enable)

/-- What is borrowed elsewhere while a workload is added: the scheduler, `AllStorages` exclusively, storages. -/
structure Held where
  scheduler : Bool
  all : Bool
  sto : Nat → Bool

/-- `src/error.rs` `AddWorkload`: the errors of `create_workload` and those of `add_to_world`. -/
inductive RegErr where
  | borrow
  | sched (f : Fail)
  | trackAll
  | trackSto (k : Nat)
  deriving DecidableEq, Repr

/-- The loops of `src/scheduler/workload.rs:469-476` and `79-81`: `custom_storage_or_insert_mut` makes the storage when it
is missing and fails when it is borrowed; the ones before stay enabled. -/
def enableAll (held : Nat → Bool) : List (Nat × Kind) → World V → World V × Except Nat Unit
  | [], w => (w, .ok ())
  | (k, kind) :: l, w =>
    match lookupK w.stos k with
    | some s => if held k then (w, .error k) else enableAll held l (w.put k (enableTracking kind s))
    | none => enableAll held l (w.put k (enableTracking kind (World.newSto fl k)))

variable {W η : Type}

/-- `insert_systems_in_scheduler`, `src/scheduler/workload/create_workload.rs:325`: what the systems of the workload want
enabled, whether or not their functions were known. -/
def trackingOf (wl : Workload W η) : List (Nat × Kind) := wl.systems.flatMap (·.tracking)

/-- `src/scheduler/workload.rs:436-481` `add_to_world`: the world, the scheduler, and the result. `create_workload` has
stored the workload before tracking is enabled; the information about it is stored last. -/
def addToWorld (held : Held) (w : World V) (sch : Scheduler W η) (wl : Workload W η) :
    World V × Scheduler W η × Except RegErr Unit :=
  if held.scheduler then (w, sch, .error .borrow)
  else
    match createWorkload sch wl with
    | .error f => (w, (sch.add wl).1, .error (.sched f))
    | .ok c =>
      if held.all then (w, c.sch, .error .trackAll)
      else
        match enableAll fl held.sto (trackingOf wl) w with
        | (w, .error k) => (w, c.sch, .error (.trackSto k))
        | (w, .ok _) => (w, c.sch.insertInfo wl.name c.info, .ok ())

/-- `src/scheduler/workload.rs:34-46` `ScheduledWorkload`. -/
structure Scheduled (W η : Type) where
  name : Label
  systems : List (SysFn W η)
  systemNames : List Label
  tracking : List (Nat × Kind)
  batches : Batches W η

/-- `src/scheduler/workload.rs:518-547` `build`: a scheduler of its own, from which the batches are taken. -/
def build (wl : Workload W η) : Except Fail (Scheduled W η × WorkloadInfo) := do
  let c ← createWorkload Scheduler.empty wl
  match c.sch.workload wl.name with
  | none => .error (.fault .panic)
  | some b =>
    .ok ({ name := wl.name, systems := c.sch.systems, systemNames := c.sch.systemNames, tracking := trackingOf wl,
           batches := b }, c.info)

/-- `src/scheduler/workload.rs:58-60` `run_with_world`. -/
def Scheduled.run (p : Scheduled W η) (w : W) : Ran W η := runBatches p.batches p.systems p.systemNames p.name w

/-- `src/scheduler/workload.rs:73-85` `apply_tracking`; `none` is the error for `AllStorages`. -/
def Scheduled.applyTracking (p : Scheduled W η) (held : Held) (w : World V) : World V × Except (Option Nat) Unit :=
  if held.all then (w, .error none)
  else
    match enableAll fl held.sto p.tracking w with
    | (w, .error k) => (w, .error (some k))
    | (w, .ok _) => (w, .ok ())

end Verif.Reg

import Verif.Model.Workload

/-!
# Scheduling a workload

Models `src/scheduler/workload/create_workload.rs`, `src/scheduler/{mod,batches}.rs` and the parts of
`src/scheduler/workload.rs` that call them.

`usize::MAX` as a run_if index ("no condition") is `none`. Strings made with `format!("{:?}", label)` are the
label itself.
-/
namespace Verif.Sched

/-- `src/scheduler/workload/create_workload.rs:45-74` `DedupedUniqueIds::add`: the vector is sorted, binary search
finds the place. -/
def addId : List Nat → Nat → List Nat
  | [], x => [x]
  | y :: t, x => if x < y then x :: y :: t else if x = y then y :: t else y :: addId t x

/-- `src/scheduler/info.rs:78-98` `Conflict`. -/
inductive Conflict where
  | borrow (typeInfo : TypeInfo) (otherSystem : Nat) (otherTypeInfo : TypeInfo)
  | notSendSync (typeInfo : TypeInfo)
  | otherNotSendSync (system : Nat) (typeInfo : TypeInfo)
  deriving DecidableEq, Repr

/-- `src/scheduler/info.rs:258-267` `BeforeAfterConstraint`. -/
structure Constraint where
  otherSystem : Nat
  constraint : Label
  deriving DecidableEq, Repr

/-- The fields of `ToBePlacedSystem` that are only copied to `SystemInfo`: `confict`, `after_info`,
`after_all_info` and `before_all_info` (`src/scheduler/workload/create_workload.rs:25-29, 41`). -/
structure Notes where
  conflict : Option Conflict
  after : List Nat
  afterAll : List Constraint
  beforeAll : List Constraint
  deriving DecidableEq, Repr

/-- `src/scheduler/info.rs:43-61` `SystemInfo`. -/
structure SystemInfo where
  name : Label
  borrow : List TypeInfo
  conflict : Option Conflict
  after : List Nat
  afterAll : List Constraint
  beforeAll : List Constraint
  uniqueId : Nat
  deriving DecidableEq, Repr

/-- `src/scheduler/info.rs:29-32` `BatchInfo`. -/
abbrev BatchInfo := Option SystemInfo × List SystemInfo

/-- `src/scheduler/info.rs:18-23` `WorkloadInfo`. -/
structure WorkloadInfo where
  name : Label
  batches : List BatchInfo
  deriving DecidableEq, Repr

/-- `src/scheduler/info.rs:36-38` `BatchInfo::systems`. -/
def batchSystems (b : BatchInfo) : List SystemInfo := b.1.toList ++ b.2

/-- `src/scheduler/workload/create_workload.rs:19-42` `ToBePlacedSystem`. `uid` is the number in the
`UniqueSystemId` label the code pushes to `tags` (337); it is repeated as a field for the statements and never
read by the model's algorithms. -/
structure Sys (W ε : Type) where
  index : Nat
  uid : Nat
  name : Label
  borrows : List TypeInfo
  tags : List Label
  beforeAll : List Label
  afterAll : List Label
  softAfter : List Nat
  hardAfter : List Nat
  hardBefore : List Label
  reqIn : List Label
  reqBefore : List Label
  reqAfter : List Label
  runIf : Option (Cond W ε)
  notes : Notes

variable {W ε : Type}

/-- `src/scheduler/batches.rs:9-22` `Batches`. -/
structure Batches (W ε : Type) where
  parallel : List (Option Nat × List Nat)
  parallelRunIf : List (Option Nat × List (Option Nat))
  sequential : List Nat
  sequentialRunIf : List (Option Nat)
  workloadRunIf : Option (Cond W ε)
  systemsRunIf : List (Cond W ε)

/-- `src/scheduler/mod.rs:39-64` `Scheduler`. The hash maps are association lists with distinct keys. -/
structure Scheduler (W ε : Type) where
  systems : List (SysFn W ε)
  systemNames : List Label
  lookup : List (Nat × Nat)
  workloads : List (Label × Batches W ε)
  infos : List (Label × WorkloadInfo)
  default : Label

/-- `src/scheduler/mod.rs:52-64`; the empty string is label `str 0`. -/
def Scheduler.empty : Scheduler W ε :=
  { systems := [], systemNames := [], lookup := [], workloads := [], infos := [], default := .str 0 }

/-- `src/error.rs` `AddWorkload`. -/
inductive AddErr where
  | alreadyExists
  | missingInWorkload (name : Label) (labels : List Label)
  | missingBefore (name : Label) (labels : List Label)
  | missingAfter (name : Label) (labels : List Label)
  | cycle (names : List Label)
  deriving DecidableEq, Repr

/-- How building a workload ends when not successfully: an error value or a fault. -/
inductive Fail where
  | err (e : AddErr)
  | fault (f : Fault)
  deriving DecidableEq, Repr

/-- `src/scheduler/workload/create_workload.rs:725-757` `check_conflict` for one pair of views. -/
def conflictT (a b : TypeInfo) : Bool :=
  (!a.threadSafe && !b.threadSafe)
    || (decide (a.storage = b.storage) && (a.exclusive || b.exclusive))
    || decide (a.storage = allStorages) || decide (b.storage = allStorages)

/-- `src/scheduler/workload/create_workload.rs:725-757` `check_conflict`. -/
def conflict (a b : List TypeInfo) : Bool := a.any fun x => b.any fun y => conflictT x y

/-- `src/scheduler/workload/create_workload.rs:725-757` `check_conflict`, the conflict it returns for one pair of
views. -/
def conflictInfoT (other : Nat) (a b : TypeInfo) : Option Conflict :=
  if !a.threadSafe && !b.threadSafe then some (.otherNotSendSync other b)
  else if (decide (a.storage = b.storage) && (a.exclusive || b.exclusive))
      || decide (a.storage = allStorages) || decide (b.storage = allStorages) then
    some (.borrow a other b)
  else none

/-- `src/scheduler/workload/create_workload.rs:725-757` `check_conflict`, the value it returns. -/
def conflictInfo (a : List TypeInfo) (other : Nat) (b : List TypeInfo) : Option Conflict :=
  a.findSome? fun x => b.findSome? fun y => conflictInfoT other x y

/-- `src/scheduler/workload/create_workload.rs:286-364` `insert_systems_in_scheduler`, one system. -/
def insertSystem (sch : Scheduler W ε) (s : WSys W ε) : Scheduler W ε × Sys W ε :=
  let r : Scheduler W ε × Nat :=
    match sch.lookup.find? (fun p => p.1 == s.typeId) with
    | some p => (sch, p.2)
    | none =>
      ({ sch with
          systems := sch.systems ++ [s.fn]
          systemNames := sch.systemNames ++ [s.name]
          lookup := sch.lookup ++ [(s.typeId, sch.systems.length)] }, sch.systems.length)
  (r.1,
   { index := r.2, uid := s.uid, name := s.name, borrows := s.borrows,
     tags := s.tags ++ [.unique s.uid], beforeAll := s.beforeAll, afterAll := s.afterAll,
     softAfter := [], hardAfter := [], hardBefore := extendLabels [] (s.before.map Label.unique),
     reqIn := s.reqIn, reqBefore := s.reqBefore, reqAfter := s.reqAfter, runIf := s.runIf,
     notes := { conflict := none, after := [], afterAll := [], beforeAll := [] } })

/-- `src/scheduler/workload/create_workload.rs:286-364` `insert_systems_in_scheduler`. The `after` list is read
into a local variable that is not used (317-322, 348). -/
def insertSystems (sch : Scheduler W ε) : List (WSys W ε) → Scheduler W ε × List (Sys W ε)
  | [] => (sch, [])
  | s :: rest =>
    let (sch, x) := insertSystem sch s
    let (sch, xs) := insertSystems sch rest
    (sch, x :: xs)

/-- `require.retain(|required| system.tags.iter().all(|tag| tag != required))` for each system of a list. The
early exit when nothing is left does not change the result. -/
def unmet (req : List Label) (ss : List (Sys W ε)) : List Label :=
  ss.foldl (fun req s => req.filter fun r => decide (r ∉ s.tags)) req

/-- `src/scheduler/workload/create_workload.rs:152-176` `check_require_in_workload`. -/
def checkRequireIn (ss : List (Sys W ε)) : List (Sys W ε) → Except Fail Unit
  | [] => .ok ()
  | s :: rest =>
    let missing := unmet s.reqIn ss
    if missing.isEmpty then checkRequireIn ss rest
    else .error (.err (.missingInWorkload s.name missing))

/-- `system.hard_after.add(i)` for a range of positions. -/
def Sys.after (s : Sys W ε) (ids : List Nat) : Sys W ε :=
  { s with hardAfter := ids.foldl addId s.hardAfter }

/-- `src/scheduler/workload/create_workload.rs:400-408` `propagate_barriers`; `to_be_placed_systems[index..]` panics
when the barrier is past the end. -/
def propagateBarriers (ss : List (Sys W ε)) : List Nat → Except Fail (List (Sys W ε))
  | [] => .ok ss
  | index :: rest =>
    if ss.length < index then .error (.fault .panic)
    else
      propagateBarriers
        (ss.mapIdx fun k s => if index ≤ k then s.after (List.range index) else s) rest

/-- `for j in (0..i).rev() { if p(j) { return j } }`. -/
def findDown (p : Nat → Bool) : Nat → Option Nat
  | 0 => none
  | j + 1 => if p j then some j else findDown p j

/-- "system has opted out of the implicit ordering", `src/scheduler/workload/create_workload.rs:414`. -/
def Sys.optedOut (s : Sys W ε) : Bool := !s.beforeAll.isEmpty || !s.afterAll.isEmpty

/-- The predicate tested on `j` in the inner loop of `propagate_implicit_hard_ordering`. -/
def blocks (ss : List (Sys W ε)) (s : Sys W ε) (j : Nat) : Bool :=
  match ss[j]? with
  | some o => !o.optedOut && conflict s.borrows o.borrows
  | none => false

/-- What `check_conflict` returns for `s` and the system at position `j`, lines 430-431. -/
def conflictWith (ss : List (Sys W ε)) (s : Sys W ε) (j : Nat) : Option Conflict :=
  match ss[j]? with
  | some o => conflictInfo s.borrows o.index o.borrows
  | none => none

/-- `src/scheduler/workload/create_workload.rs:411-440` `propagate_implicit_hard_ordering`. Iteration `i` only
writes `hard_after` and `confict` of system `i` and reads fields that are not written, so the loop is a map. -/
def implicitHard (ss : List (Sys W ε)) : List (Sys W ε) :=
  ss.mapIdx fun i s =>
    if s.optedOut then s
    else
      match findDown (blocks ss s) i with
      | some j => { s with
          hardAfter := addId s.hardAfter j
          notes := { s.notes with conflict := conflictWith ss s j } }
      | none => s

/-- The predicate tested on `j` in the inner loop of `propagate_implicit_soft_ordering`. -/
def isImplicit (ss : List (Sys W ε)) (j : Nat) : Bool :=
  match ss[j]? with
  | some o => !o.optedOut
  | none => false

/-- `src/scheduler/workload/create_workload.rs:443-467` `propagate_implicit_soft_ordering`, a map as above. -/
def implicitSoft (ss : List (Sys W ε)) : List (Sys W ε) :=
  ss.mapIdx fun i s =>
    if s.optedOut then s
    else
      match findDown (isImplicit ss) i with
      | some j => { s with softAfter := addId s.softAfter j }
      | none => s

/-- `before_all_info` of system `i`, `src/scheduler/workload/create_workload.rs:475-491`: the first tag of each
other system that is in the list, and the `index` of that system. -/
def beforeAllNotes (ss : List (Sys W ε)) (i : Nat) (before : List Label) : List Constraint :=
  (List.range ss.length).filterMap fun j =>
    if i = j then none
    else
      match ss[j]? with
      | some o => (o.tags.find? fun tag => decide (tag ∈ before)).map fun tag => ⟨o.index, tag⟩
      | none => none

/-- Iteration `i` of `map_before_all_to_after`, `src/scheduler/workload/create_workload.rs:473-495`. -/
def beforeAllStep (ss : List (Sys W ε)) (i : Nat) : List (Sys W ε) :=
  match ss[i]? with
  | none => ss
  | some me =>
    ss.mapIdx fun j o =>
      if i = j then
        { o with
          beforeAll := []
          notes := { o.notes with beforeAll := beforeAllNotes ss i me.beforeAll } }
      else if o.tags.any (fun tag => decide (tag ∈ me.beforeAll)) then
        { o with hardAfter := addId o.hardAfter i }
      else o

/-- `src/scheduler/workload/create_workload.rs:472-497` `map_before_all_to_after`. -/
def mapBeforeAll (ss : List (Sys W ε)) : List (Sys W ε) :=
  (List.range ss.length).foldl beforeAllStep ss

/-- The positions found by the inner loop of `map_after_all_to_after` for system `i`,
`src/scheduler/workload/create_workload.rs:507-523`. -/
def afterAllHits (ss : List (Sys W ε)) (i : Nat) (labels : List Label) : List Nat :=
  (List.range ss.length).filter fun j =>
    decide (i ≠ j) && (match ss[j]? with
      | some o => labels.any fun l => decide (l ∈ o.tags)
      | none => false)

/-- `after_all_info` of system `i`, `src/scheduler/workload/create_workload.rs:505-522`: the first label of the list
that tags each other system, and the position of that system. -/
def afterAllNotes (ss : List (Sys W ε)) (i : Nat) (labels : List Label) : List Constraint :=
  (List.range ss.length).filterMap fun j =>
    if i = j then none
    else
      match ss[j]? with
      | some o => (labels.find? fun l => decide (l ∈ o.tags)).map fun l => ⟨j, l⟩
      | none => none

/-- `src/scheduler/workload/create_workload.rs:502-528` `map_after_all_to_after`; iteration `i` only writes
system `i` and only reads `tags` of the others. -/
def mapAfterAll (ss : List (Sys W ε)) : List (Sys W ε) :=
  ss.mapIdx fun i s =>
    { (s.after (afterAllHits ss i s.afterAll)) with
      afterAll := []
      notes := { s.notes with afterAll := afterAllNotes ss i s.afterAll } }

/-- The first `j ≠ i` of the inner loop of `map_before_to_after`, which then breaks,
`src/scheduler/workload/create_workload.rs:537-550`. -/
def beforeHit (ss : List (Sys W ε)) (i : Nat) (before : List Label) : Option Nat :=
  (List.range ss.length).find? fun j =>
    decide (i ≠ j) && (match ss[j]? with
      | some o => o.tags.any fun tag => decide (tag ∈ before)
      | none => false)

/-- Iteration `i` of `map_before_to_after`. -/
def beforeStep (ss : List (Sys W ε)) (i : Nat) : List (Sys W ε) :=
  match ss[i]? with
  | none => ss
  | some me =>
    let hit := beforeHit ss i me.hardBefore
    ss.mapIdx fun j o =>
      let o := if i = j then { o with hardBefore := [] } else o
      if hit = some j then { o with hardAfter := addId o.hardAfter i } else o

/-- `src/scheduler/workload/create_workload.rs:533-553` `map_before_to_after`. -/
def mapBefore (ss : List (Sys W ε)) : List (Sys W ε) :=
  (List.range ss.length).foldl beforeStep ss

/-- `src/scheduler/workload/create_workload.rs:181-195` `recursive_add_systems_before`; `fuel` bounds the depth. -/
def addBefore (ss : List (Sys W ε)) : Nat → List Nat → Nat → Except Fail (List Nat)
  | fuel, seen, i =>
    if i ∈ seen then .ok seen
    else
      match fuel with
      | 0 => .error (.fault .diverge)
      | fuel + 1 =>
        match ss[i]? with
        | none => .error (.fault .panic)
        | some s => s.hardAfter.foldlM (addBefore ss fuel) (addId seen i)

/-- The systems at the given positions, in order (`&to_be_placed_systems[system_before]`). -/
def pick (ss : List (Sys W ε)) (ids : List Nat) : List (Sys W ε) := ids.filterMap fun i => ss[i]?

/-- `src/scheduler/workload/create_workload.rs:178-223` `check_require_before`, the loop over the systems. -/
def checkRequireBefore (ss : List (Sys W ε)) : List (Sys W ε) → Except Fail Unit
  | [] => .ok ()
  | s :: rest => do
    let before ← s.hardAfter.foldlM (addBefore ss ss.length) []
    let missing := unmet s.reqBefore (pick ss before)
    if missing.isEmpty then checkRequireBefore ss rest
    else .error (.err (.missingBefore s.name missing))

/-- The positions `i ≠ me` whose `hard_after` contains `me`. -/
def directlyAfter (ss : List (Sys W ε)) (me : Nat) : List Nat :=
  (List.range ss.length).filter fun i =>
    decide (me ≠ i) && (match ss[i]? with
      | some s => decide (me ∈ s.hardAfter)
      | none => false)

/-- `src/scheduler/workload/create_workload.rs:228-248` `recursive_add_systems_after`. -/
def addAfter (ss : List (Sys W ε)) : Nat → List Nat → Nat → Except Fail (List Nat)
  | fuel, seen, i =>
    if i ∈ seen then .ok seen
    else
      match fuel with
      | 0 => .error (.fault .diverge)
      | fuel + 1 => (directlyAfter ss i).foldlM (addAfter ss fuel) (addId seen i)

/-- `src/scheduler/workload/create_workload.rs:225-284` `check_require_after`, the loop over the systems. Line 263
passes `i`, not `j`, for each `j` that is directly after `i`. -/
def checkRequireAfter (ss : List (Sys W ε)) : Nat → List (Sys W ε) → Except Fail Unit
  | _, [] => .ok ()
  | i, s :: rest => do
    let after ← (directlyAfter ss i).foldlM (fun seen _ => addAfter ss ss.length seen i) []
    let missing := unmet s.reqAfter (pick ss after)
    if missing.isEmpty then checkRequireAfter ss (i + 1) rest
    else .error (.err (.missingAfter s.name missing))

/-- The local variables of `order_systems`. `report` is `batches_info`; `info` lists the placed systems themselves
in the same shape. `trace` is not in the code: it lists the systems in the order they are placed, each with the number of
the batch it was placed in. -/
structure Order (W ε : Type) where
  rest : List (Sys W ε)
  queue : List (Sys W ε)
  toDelete : List Label
  sequential : List Nat
  sequentialRunIf : List (Option Nat)
  parallel : List (Option Nat × List Nat)
  parallelRunIf : List (Option Nat × List (Option Nat))
  info : List (Option (Sys W ε) × List (Sys W ε))
  runIfs : List (Cond W ε)
  report : List BatchInfo
  trace : List (Nat × Sys W ε)

/-- `hard_after.is_empty() && soft_after.is_empty()`. -/
def Sys.free (s : Sys W ε) : Bool := s.hardAfter.isEmpty && s.softAfter.isEmpty

/-- `src/scheduler/workload/create_workload.rs:67-69` `DedupedUniqueIds::retain` with
`tags.iter().all(|tag| !tag.dyn_eq(constraint))`. -/
def retainIds (ids : List Nat) (tags : List Label) : List Nat :=
  ids.filter fun id => decide (Label.unique id ∉ tags)

/-- Writing to the last element, `latest_batch`. -/
def setLast {α : Type} (l : List α) (f : α → α) : List α :=
  match l.getLast? with
  | some x => l.dropLast ++ [f x]
  | none => l

/-- `src/scheduler/workload/create_workload.rs:700-723` `check_can_go_in_parallel_batch`: is there a conflict with
the batch. -/
def batchConflict (b : Option (Sys W ε) × List (Sys W ε)) (s : Sys W ε) : Bool :=
  (match b.1 with
    | some single => conflict s.borrows single.borrows
    | none => false)
  || b.2.any fun o => conflict s.borrows o.borrows

/-- `src/scheduler/workload/create_workload.rs:700-723` `check_can_go_in_parallel_batch`, the value it returns. -/
def batchConflictInfo (b : BatchInfo) (s : Sys W ε) : Option Conflict :=
  match b.1.bind fun single => conflictInfo s.borrows single.uniqueId single.borrow with
  | some c => some c
  | none => b.2.findSome? fun o => conflictInfo s.borrows o.uniqueId o.borrow

/-- `system.confict` when the system is written, `src/scheduler/workload/create_workload.rs:594-602`. -/
def Order.conflictOf (o : Order W ε) (s : Sys W ε) : Option Conflict :=
  match o.report.getLast?.bind fun b => batchConflictInfo b s with
  | some c => some c
  | none => s.notes.conflict

/-- The `SystemInfo` of a placed system, `src/scheduler/workload/create_workload.rs:612-632`. -/
def Sys.info (s : Sys W ε) (conflict : Option Conflict) : SystemInfo :=
  { name := s.name, borrow := s.borrows, conflict := conflict, after := s.notes.after,
    afterAll := s.notes.afterAll, beforeAll := s.notes.beforeAll, uniqueId := s.index }

/-- `is_single_system`, `src/scheduler/workload/create_workload.rs:607-609`. -/
def Sys.single (s : Sys W ε) : Bool :=
  s.borrows.any fun t => !t.threadSafe || decide (t.storage = allStorages)

/-- `batches.parallel.push((None, Vec::new()))` and the two pushes that go with it. -/
def Order.newBatch (o : Order W ε) : Order W ε :=
  { o with
    parallel := o.parallel ++ [(none, [])]
    parallelRunIf := o.parallelRunIf ++ [(none, [])]
    info := o.info ++ [(none, [])]
    report := o.report ++ [(none, [])] }

/-- Lines 594-605: open a new batch if the system conflicts with the latest one. -/
def Order.openBatch (o : Order W ε) (s : Sys W ε) : Order W ε :=
  match o.info.getLast? with
  | some b => if batchConflict b s then o.newBatch else o
  | none => o

/-- `run_if_index`, `src/scheduler/workload/create_workload.rs:635-641`. -/
def Sys.runIfIndex (s : Sys W ε) (count : Nat) : Option Nat :=
  match s.runIf with
  | some _ => some count
  | none => none

/-- Lines 611-648: write the system in the latest batch. -/
def Order.write (o : Order W ε) (s : Sys W ε) (conflict : Option Conflict) : Order W ε :=
  let ri := s.runIfIndex o.runIfs.length
  { o with
    sequential := o.sequential ++ [s.index]
    sequentialRunIf := o.sequentialRunIf ++ [ri]
    runIfs := o.runIfs ++ s.runIf.toList
    parallel := setLast o.parallel fun b =>
      if s.single then (some s.index, b.2) else (b.1, b.2 ++ [s.index])
    parallelRunIf := setLast o.parallelRunIf fun b =>
      if s.single then (ri, b.2) else (b.1, b.2 ++ [ri])
    info := setLast o.info fun b => if s.single then (some s, b.2) else (b.1, b.2 ++ [s])
    report := setLast o.report fun b =>
      if s.single then (some (s.info conflict), b.2) else (b.1, b.2 ++ [s.info conflict])
    trace := o.trace ++ [(o.info.length - 1, s)] }

/-- Lines 650-659: remove the soft constraints to the system just placed and extract the systems that
became free. -/
def Order.relax (o : Order W ε) (s : Sys W ε) : Order W ε :=
  let rest := o.rest.map fun x => { x with softAfter := retainIds x.softAfter s.tags }
  { o with
    rest := rest.filter fun x => !x.free
    queue := o.queue ++ rest.filter Sys.free
    toDelete := o.toDelete ++ s.tags }

/-- One turn of the inner loop, `src/scheduler/workload/create_workload.rs:590-660`. -/
def Order.place (o : Order W ε) (s : Sys W ε) : Order W ε :=
  ((o.openBatch s).write s (o.conflictOf s)).relax s

/-- `while let Some(system) = constraint_free_systems.pop_front()`. -/
def Order.drain : Nat → Order W ε → Except Fail (Order W ε)
  | 0, o => if o.queue.isEmpty then .ok o else .error (.fault .diverge)
  | fuel + 1, o =>
    match o.queue with
    | [] => .ok o
    | s :: q => Order.drain fuel ({ o with queue := q }.place s)

/-- `src/scheduler/workload/create_workload.rs:662-669`: remove the hard constraints to the systems placed since the
last time, extract the free systems. -/
def Order.release (o : Order W ε) : Order W ε :=
  let rest := o.rest.map fun x => { x with hardAfter := retainIds x.hardAfter o.toDelete }
  { o with
    rest := rest.filter fun x => !x.free
    queue := o.queue ++ rest.filter Sys.free }

/-- The outer loop, `src/scheduler/workload/create_workload.rs:589-684`. -/
def Order.loop : Nat → Order W ε → Except Fail (Order W ε)
  | 0, _ => .error (.fault .diverge)
  | fuel + 1, o => do
    let o ← Order.drain (o.queue.length + o.rest.length) o
    let o := o.release
    if o.queue.isEmpty then .ok o
    else Order.loop fuel { o.newBatch with toDelete := [] }

/-- The state before the loop, `src/scheduler/workload/create_workload.rs:566-588`. -/
def Order.init (ss : List (Sys W ε)) : Order W ε :=
  { rest := ss.filter fun s => !s.free, queue := ss.filter Sys.free, toDelete := [],
    sequential := [], sequentialRunIf := [], parallel := [(none, [])],
    parallelRunIf := [(none, [])], info := [(none, [])], runIfs := [], report := [(none, [])], trace := [] }

/-- The state of an empty workload, `src/scheduler/workload/create_workload.rs:562-564`. -/
def Order.none : Order W ε :=
  { rest := [], queue := [], toDelete := [], sequential := [], sequentialRunIf := [],
    parallel := [], parallelRunIf := [], info := [], runIfs := [], report := [], trace := [] }

/-- `system.after_info = system.hard_after.clone()`, `src/scheduler/workload/create_workload.rs:566-568`. -/
def Sys.noteAfter (s : Sys W ε) : Sys W ε := { s with notes := { s.notes with after := s.hardAfter } }

/-- `src/scheduler/workload/create_workload.rs:558-698` `order_systems`. -/
def orderSystems (ss : List (Sys W ε)) : Except Fail (Order W ε) :=
  if ss.isEmpty then .ok Order.none
  else do
    let o ← Order.loop (ss.length + 1) (Order.init (ss.map Sys.noteAfter))
    if o.rest.isEmpty then .ok o
    else .error (.err (.cycle (o.rest.map (·.name))))

/-- What `create_workload` produces on success: the new scheduler, the batches it stored, the information it returns,
and the ghost `trace` of `order_systems`. -/
structure Created (W ε : Type) where
  sch : Scheduler W ε
  batches : Batches W ε
  info : WorkloadInfo
  trace : List (Nat × Sys W ε)

/-- The constraint passes, `src/scheduler/workload/create_workload.rs:119-124`. -/
def constrain (ss : List (Sys W ε)) (barriers : List Nat) : Except Fail (List (Sys W ε)) := do
  let ss ← propagateBarriers ss barriers
  .ok (mapBefore (mapAfterAll (mapBeforeAll (implicitSoft (implicitHard ss)))))

/-- `workloads.contains_key`. -/
def Scheduler.contains (sch : Scheduler W ε) (l : Label) : Bool :=
  sch.workloads.any fun p => decide (p.1 = l)

/-- `src/scheduler/workload/create_workload.rs:140-149`: store the batches under the name. -/
def Scheduler.store (sch : Scheduler W ε) (name : Label) (b : Batches W ε) : Scheduler W ε :=
  { sch with
    default := if sch.workloads.isEmpty then name else sch.default
    workloads := sch.workloads ++ [(name, b)] }

/-- `src/scheduler/workload/create_workload.rs:77-150` `create_workload`. -/
def createWorkload (sch : Scheduler W ε) (w : Workload W ε) : Except Fail (Created W ε) :=
  if sch.contains w.name then .error (.err .alreadyExists)
  else do
    let p := insertSystems sch w.systems
    checkRequireIn p.2 p.2
    let ss ← constrain p.2 w.barriers
    checkRequireBefore ss ss
    checkRequireAfter ss 0 ss
    let o ← orderSystems ss
    let b : Batches W ε :=
      { parallel := o.parallel, parallelRunIf := o.parallelRunIf, sequential := o.sequential,
        sequentialRunIf := o.sequentialRunIf, workloadRunIf := w.runIf, systemsRunIf := o.runIfs }
    .ok { sch := p.1.store w.name b, batches := b, info := { name := w.name, batches := o.report }, trace := o.trace }

namespace Scheduler

/-- `workloads_info.insert(name, workload_info)`, `src/scheduler/workload.rs:478`. `HashMap::insert` replaces an
existing entry. -/
def insertInfo (sch : Scheduler W ε) (name : Label) (i : WorkloadInfo) : Scheduler W ε :=
  { sch with infos := (sch.infos.filter fun p => decide (p.1 ≠ name)) ++ [(name, i)] }

/-- `src/scheduler/workload.rs:436-481` `add_to_world`: what is left in the scheduler, and the result. On
an error other than `AlreadyExists` the functions of the workload stay in the scheduler's list of systems (it was
extended before the checks). What happens to tracking is in `Verif/Model/Register.lean`. -/
def add (sch : Scheduler W ε) (w : Workload W ε) : Scheduler W ε × Except Fail Unit :=
  match createWorkload sch w with
  | .ok c => (c.sch.insertInfo w.name c.info, .ok ())
  | .error (.err .alreadyExists) => (sch, .error (.err .alreadyExists))
  | .error e => ((insertSystems sch w.systems).1, .error e)

/-- `src/scheduler/mod.rs:67-78` `set_default`. -/
def setDefault (sch : Scheduler W ε) (l : Label) : Option (Scheduler W ε) :=
  if sch.contains l then some { sch with default := l } else none

/-- `src/scheduler/mod.rs:79-85` `workload`. -/
def workload (sch : Scheduler W ε) (l : Label) : Option (Batches W ε) :=
  (sch.workloads.find? fun p => decide (p.1 = l)).map (·.2)

/-- `src/scheduler/mod.rs:86-88` `default_workload`, which panics on a missing key. -/
def defaultWorkload (sch : Scheduler W ε) : Res (Batches W ε) :=
  match sch.workload sch.default with
  | some b => .ok b
  | none => .error .panic

/-- `src/scheduler/mod.rs:95-103` `rename`. `HashMap::insert` replaces an existing entry. -/
def rename (sch : Scheduler W ε) (old new : Label) : Scheduler W ε :=
  match sch.workload old with
  | none => sch
  | some b =>
    let others := sch.workloads.filter fun p => decide (p.1 ≠ old)
    { sch with
      default := if sch.default = old then new else sch.default
      workloads := (others.filter fun p => decide (p.1 ≠ new)) ++ [(new, b)] }

end Scheduler

end Verif.Sched

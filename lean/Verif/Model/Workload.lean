import Verif.Model.EntityId
import Verif.Model.Track

/-!
# Systems and workloads before scheduling

Models `src/scheduler/{label,info,system,workload,workload_modificator,system_modificator,into_workload,
into_workload_system,into_workload_run_if}.rs`.

`W` is the type of worlds and `ε` the type of run errors. Systems and conditions
(`Fn(&World) -> Result<_, error::Run>`) return the new world, the interior mutability made explicit. Labels are compared with `dyn_eq`, i.e. by kind and content.
-/
namespace Verif.Sched

/-- `src/scheduler/label.rs`: the label kinds. `str` stands for user labels (strings, `Cow`, user
types), `typeId` for `impl Label for TypeId` (51-71), `system`/`workload` for `SystemLabel` (170-202)
and `WorkloadLabel` (204-236), which compare by `type_id` only, `sequential` for `SequentialLabel`
(140-168), `unique` for the private `UniqueSystemId` of `create_workload.rs:370-398`. -/
inductive Label where
  | str (n : Nat)
  | typeId (t : Nat)
  | system (t : Nat)
  | workload (t : Nat)
  | sequential (l : Label)
  | unique (n : Nat)
  deriving DecidableEq, Repr

/-- `src/scheduler/info.rs:103-113`. The `name` field is only used for display. -/
structure TypeInfo where
  storage : Nat
  exclusive : Bool
  threadSafe : Bool
  deriving DecidableEq, Repr

/-- `StorageId::of::<AllStorages>()`. -/
def allStorages : Nat := 0

/-- `src/scheduler/info.rs:189-200` `DedupedLabels::add`. -/
def addLabel (ls : List Label) (l : Label) : List Label :=
  if l ∈ ls then ls else ls ++ [l]

/-- `src/scheduler/info.rs:248-254` `DedupedLabels::extend`. -/
def extendLabels (ls : List Label) (new : List Label) : List Label :=
  new.foldl addLabel ls

variable {W ε : Type}

/-- A condition: `Fn(&World) -> Result<bool, error::Run>`. It can change the world through its views. -/
abbrev Cond (W ε : Type) := W → W × Except ε Bool

/-- A system: `Fn(&World) -> Result<(), error::Run>`. When it fails, what it has done before stays done. -/
abbrev SysFn (W ε : Type) := W → W × Except ε Unit

/-- `src/scheduler/system.rs:37-70` `WorkloadSystem`. `tracking` is `tracking_to_enable`: each of its functions enables
one tracking type for one storage (`src/borrow/borrow_info.rs:149-159`). Not modelled: `generator`. -/
structure WSys (W ε : Type) where
  typeId : Nat
  name : Label
  fn : SysFn W ε
  borrows : List TypeInfo
  tracking : List (Nat × Track.Kind)
  runIf : Option (Cond W ε)
  tags : List Label
  beforeAll : List Label
  afterAll : List Label
  after : List Nat
  before : List Nat
  uid : Nat
  reqIn : List Label
  reqBefore : List Label
  reqAfter : List Label

/-- `src/scheduler/workload.rs:120-131` `Workload`. -/
structure Workload (W ε : Type) where
  name : Label
  tags : List Label
  systems : List (WSys W ε)
  runIf : Option (Cond W ε)
  beforeAll : List Label
  afterAll : List Label
  overwrittenName : Bool
  reqBefore : List Label
  reqAfter : List Label
  barriers : List Nat

/-- `src/error.rs` `InvalidSystem`. -/
inductive InvalidSystem where
  | allStorages
  | multipleViewsMut
  | multipleViews
  deriving DecidableEq, Repr

/-- The `match` on the two mutabilities of two views of one storage,
`src/scheduler/into_workload_system.rs:123-132`. -/
def pairCheck (a b : TypeInfo) : Option InvalidSystem :=
  if a.storage = b.storage then
    match a.exclusive, b.exclusive with
    | true, true => some .multipleViewsMut
    | true, false => some .multipleViews
    | false, true => some .multipleViews
    | false, false => none
  else none

/-- The two nested loops of `src/scheduler/into_workload_system.rs:119-136`: for each view, all the
views after it. -/
def pairLoop : List TypeInfo → Option InvalidSystem
  | [] => none
  | a :: rest =>
    match rest.findSome? (pairCheck a) with
    | some e => some e
    | none => pairLoop rest

/-- `src/scheduler/into_workload_system.rs:104-136`: the validity check on the views of a system. The same
check is in `into_workload_try_system.rs` and in `IntoWorkloadRunIf`
(`into_workload_run_if.rs:135-165`). -/
def checkBorrows (bs : List TypeInfo) : Except InvalidSystem Unit :=
  if bs.any (fun t => decide (t.storage = allStorages) && t.exclusive) && decide (1 < bs.length) then
    .error .allStorages
  else
    match pairLoop bs with
    | some e => .error e
    | none => .ok ()

/-- `src/scheduler/into_workload_run_if.rs:49-82`: the check made on the views of a system-level `run_if`
function (`IntoRunIf`): only pairs with one view in the first half and one in the second half. -/
def checkRunIfBorrows (bs : List TypeInfo) : Except InvalidSystem Unit :=
  if bs.any (fun t => decide (t.storage = allStorages) && t.exclusive) && decide (1 < bs.length) then
    .error .allStorages
  else
    let mid := bs.length / 2 + (if bs.length % 2 ≠ 0 then 1 else 0)
    match (bs.take mid).findSome? (fun a => (bs.drop mid).findSome? (pairCheck a)) with
    | some e => .error e
    | none => .ok ()

/-- `src/scheduler/into_workload_system.rs:104-170` `into_workload_system` for a function of type
`typeId` borrowing `bs`; `tracking` is what `enable_tracking` of the views collected (139-142). -/
def WSys.ofFn (typeId : Nat) (bs : List TypeInfo) (fn : SysFn W ε) (tracking : List (Nat × Track.Kind) := []) :
    Except InvalidSystem (WSys W ε) :=
  match checkBorrows bs with
  | .error e => .error e
  | .ok _ =>
    .ok { typeId, name := .system typeId, fn, borrows := bs, tracking, runIf := none,
          tags := [.system typeId], beforeAll := [], afterAll := [], after := [], before := [],
          uid := 0, reqIn := [], reqBefore := [], reqAfter := [] }

/-- `Ok((a)(world)? && (b)(world)?)`. -/
def Cond.and (a b : Cond W ε) : Cond W ε := fun w =>
  match a w with
  | (w, .error e) => (w, .error e)
  | (w, .ok false) => (w, .ok false)
  | (w, .ok true) => b w

/-- `(c)(world).map(Not::not)`. -/
def Cond.not (c : Cond W ε) : Cond W ε := fun w =>
  match c w with
  | (w, .error e) => (w, .error e)
  | (w, .ok x) => (w, .ok (!x))

/-- `if let Some(prev) = run_if { prev && new } else { new }`. -/
def andThen (prev : Option (Cond W ε)) (new : Cond W ε) : Option (Cond W ε) :=
  match prev with
  | some p => some (Cond.and p new)
  | none => some new

namespace WSys

/-- `src/scheduler/system_modificator.rs:203-215` `run_if` on a `WorkloadSystem`. On a plain function
(127-134, 277-284) the previous condition is `None`, and the result is the same. -/
def addRunIf (s : WSys W ε) (c : Cond W ε) : WSys W ε := { s with runIf := andThen s.runIf c }
/-- `src/scheduler/system_modificator.rs:217-223` `skip_if`. -/
def addSkipIf (s : WSys W ε) (c : Cond W ε) : WSys W ε := s.addRunIf (Cond.not c)
/-- `src/scheduler/system_modificator.rs:224-228` `before_all`. -/
def addBeforeAll (s : WSys W ε) (l : Label) : WSys W ε :=
  { s with beforeAll := addLabel s.beforeAll l }
/-- `src/scheduler/system_modificator.rs:229-233` `after_all`. -/
def addAfterAll (s : WSys W ε) (l : Label) : WSys W ε :=
  { s with afterAll := addLabel s.afterAll l }
/-- `src/scheduler/system_modificator.rs:234-238` `display_name`. -/
def displayName (s : WSys W ε) (l : Label) : WSys W ε := { s with name := l }
/-- `src/scheduler/system_modificator.rs:239-243` `tag`. -/
def addTag (s : WSys W ε) (l : Label) : WSys W ε := { s with tags := s.tags ++ [l] }
/-- `src/scheduler/system_modificator.rs:245-249` `require_in_workload`. -/
def requireIn (s : WSys W ε) (l : Label) : WSys W ε := { s with reqIn := addLabel s.reqIn l }
/-- `src/scheduler/system_modificator.rs:251-255` `require_before`. -/
def requireBefore (s : WSys W ε) (l : Label) : WSys W ε :=
  { s with reqBefore := addLabel s.reqBefore l }
/-- `src/scheduler/system_modificator.rs:257-261` `require_after`. -/
def requireAfter (s : WSys W ε) (l : Label) : WSys W ε :=
  { s with reqAfter := addLabel s.reqAfter l }

end WSys

namespace Workload

/-- `src/scheduler/workload.rs:175-190` `new`. -/
def new (label : Label) : Workload W ε :=
  { name := label, tags := [label], systems := [], runIf := none, beforeAll := [], afterAll := [],
    overwrittenName := true, reqBefore := [], reqAfter := [], barriers := [] }

/-- `src/scheduler/workload.rs:193-201` `append`. Returns the new `self` and what is left in `other`. -/
def append (self other : Workload W ε) : Workload W ε × Workload W ε :=
  ({ self with
      systems := self.systems ++
        other.systems.map fun s => { s with uid := s.uid + self.systems.length } },
   { other with systems := [] })

/-- The new condition of a system in `propagate`, `src/scheduler/workload.rs:222-229`. -/
def propagateRunIf (sys wl : Option (Cond W ε)) : Option (Cond W ε) :=
  match sys, wl with
  | none, none => none
  | none, some c => some c
  | some c, none => some c
  | some c, some w => some (Cond.and w c)

/-- `src/scheduler/workload.rs:220-250` `propagate`. -/
def propagate (self : Workload W ε) : Workload W ε :=
  { self with
    systems := self.systems.map fun s =>
      { s with
        runIf := propagateRunIf s.runIf self.runIf
        tags := s.tags ++ self.tags
        beforeAll := extendLabels s.beforeAll self.beforeAll
        afterAll := extendLabels s.afterAll self.afterAll
        reqBefore := extendLabels s.reqBefore self.reqBefore
        reqAfter := extendLabels s.reqAfter self.reqAfter }
    runIf := none
    tags := []
    beforeAll := []
    afterAll := []
    reqBefore := []
    reqAfter := [] }

/-- `src/scheduler/workload.rs:204-218` `merge` (and 252-254 `with_workload`). -/
def merge (self other : Workload W ε) : Workload W ε :=
  let self := self.propagate
  let other := other.propagate
  let self := { self with barriers := self.barriers ++ other.barriers.map (· + self.systems.length) }
  (self.append other).1

/-- `src/scheduler/workload.rs:295-302` `with_system` (and 347-365 `with_try_system`), given the system
returned by `into_workload_system`. -/
def withSystem (self : Workload W ε) (s : WSys W ε) : Workload W ε :=
  { self with systems := self.systems ++ [{ s with uid := s.uid + self.systems.length }] }

/-- `src/scheduler/workload.rs:552-556` `with_barrier`. -/
def withBarrier (self : Workload W ε) : Workload W ε :=
  { self with barriers := self.barriers ++ [self.systems.length] }

/-- `src/scheduler/system.rs:72-76` `Extend<WorkloadSystem> for Workload`. -/
def extend (self : Workload W ε) (ss : List (WSys W ε)) : Workload W ε :=
  { self with systems := self.systems ++ ss }

/-- `src/scheduler/workload_modificator.rs:113-125` `run_if`. -/
def addRunIf (self : Workload W ε) (c : Cond W ε) : Workload W ε :=
  { self with runIf := andThen self.runIf c }
/-- `src/scheduler/workload_modificator.rs:147-161` `skip_if`. -/
def addSkipIf (self : Workload W ε) (c : Cond W ε) : Workload W ε := self.addRunIf (Cond.not c)
/-- `src/scheduler/workload_modificator.rs:183-187` `before_all`. -/
def addBeforeAll (self : Workload W ε) (l : Label) : Workload W ε :=
  { self with beforeAll := addLabel self.beforeAll l }
/-- `src/scheduler/workload_modificator.rs:188-192` `after_all`. -/
def addAfterAll (self : Workload W ε) (l : Label) : Workload W ε :=
  { self with afterAll := addLabel self.afterAll l }
/-- `src/scheduler/workload_modificator.rs:193-199` `rename`. -/
def rename (self : Workload W ε) (l : Label) : Workload W ε :=
  { self with name := l, overwrittenName := true, tags := self.tags ++ [l] }
/-- `src/scheduler/workload_modificator.rs:200-204` `tag`. -/
def addTag (self : Workload W ε) (l : Label) : Workload W ε :=
  { self with tags := self.tags ++ [l] }

/-- `src/scheduler/into_workload.rs:165-184`: `into_workload` of a single system whose Rust type is
`t` (`WorkloadSystem` itself when the system was modified). -/
def ofSystem (t : Nat) (s : WSys W ε) : Workload W ε :=
  { name := .workload t, tags := [.workload t], systems := [s], runIf := none, beforeAll := [],
    afterAll := [], overwrittenName := false, reqBefore := [], reqAfter := [], barriers := [] }

/-- `src/scheduler/into_workload.rs:146-158`: `into_workload` of a function of type `t` returning a
workload. -/
def ofFn (t : Nat) (w : Workload W ε) : Workload W ε :=
  { (w.addTag (.workload t)) with name := .workload t }

/-- The empty workload of the tuple implementation, `src/scheduler/into_workload.rs:209-225`; `t` is the
type of the tuple. -/
def emptyTuple (t : Nat) : Workload W ε :=
  { name := .workload t, tags := [.workload t], systems := [], runIf := none, beforeAll := [],
    afterAll := [], overwrittenName := false, reqBefore := [], reqAfter := [], barriers := [] }

/-- `src/scheduler/into_workload.rs:208-233` `into_workload` of a tuple, given the workloads of its
elements. -/
def ofTuple (t : Nat) (ws : List (Workload W ε)) : Workload W ε :=
  ws.foldl merge (emptyTuple t)

/-- The chaining loop of `into_sequential_workload`, `src/scheduler/into_workload.rs:257-276`: each
element is tagged with its name, put before the tag of the next one, and merged. -/
def sequentialLoop (acc : Workload W ε) : List (Workload W ε) → Workload W ε
  | [] => acc
  | [w] => acc.merge (w.addTag (.sequential w.name))
  | w :: w' :: rest =>
    sequentialLoop
      (acc.merge ((w.addTag (.sequential w.name)).addBeforeAll (.sequential w'.name)))
      (w' :: rest)

/-- `src/scheduler/into_workload.rs:236-287` `into_sequential_workload` of a tuple; panics when a system
type appears twice. -/
def ofTupleSequential (t : Nat) (ws : List (Workload W ε)) : Res (Workload W ε) :=
  let w := sequentialLoop (emptyTuple t) ws
  if (w.systems.map (·.typeId)).Nodup then .ok w else .error .panic

/-- The constraint loop of `src/scheduler/into_workload.rs:129-134`. -/
def chainSystems : List (WSys W ε) → List (WSys W ε)
  | [] => []
  | [s] => [s]
  | s :: s' :: rest =>
    s.addBeforeAll (.sequential (.typeId s'.typeId)) :: chainSystems (s' :: rest)

/-- `src/scheduler/into_workload.rs:120-137` `into_sequential_workload` of a workload. -/
def intoSequential (w : Workload W ε) : Res (Workload W ε) :=
  if (w.systems.map (·.typeId)).Nodup then .ok { w with systems := chainSystems w.systems }
  else .error .panic

end Workload

end Verif.Sched

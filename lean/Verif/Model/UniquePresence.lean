import Verif.Model.BorrowViews
import Verif.Spec.BorrowRace

/-!
# Asking whether the uniques of a workload are there

Models `Workload::are_all_uniques_present_in_world` (`src/scheduler/workload.rs:482-517`, 559-577) and the views of uniques that do not
need the unique: `UniqueOrDefaultView(Mut)` (`src/views/unique_or_default.rs`, `unique_or_default_mut.rs`) and `UniqueOrInitView(Mut)`
(`src/views/unique_or_init.rs`, `unique_or_init_mut.rs`).
-/
namespace Verif.Borrow

/-- The type of a storage. `arg` is the name of the component. -/
inductive StoType where
  | allStorages
  | entities
  | sparseSet (arg : List Char)
  | unique (arg : List Char)
  | custom (name : List Char)

/-- `shipyard::all_storages::AllStorages` -/
def allStoragesPath : List Char := ['s', 'h', 'i', 'p', 'y', 'a', 'r', 'd', ':', ':', 'a', 'l', 'l', '_', 's', 't', 'o', 'r', 'a', 'g', 'e', 's', ':', ':', 'A', 'l', 'l', 'S', 't', 'o', 'r', 'a', 'g', 'e', 's']
/-- `shipyard::entities::Entities` -/
def entitiesPath : List Char := ['s', 'h', 'i', 'p', 'y', 'a', 'r', 'd', ':', ':', 'e', 'n', 't', 'i', 't', 'i', 'e', 's', ':', ':', 'E', 'n', 't', 'i', 't', 'i', 'e', 's']
/-- `shipyard::sparse_set::SparseSet<` -/
def sparseSetPath : List Char := ['s', 'h', 'i', 'p', 'y', 'a', 'r', 'd', ':', ':', 's', 'p', 'a', 'r', 's', 'e', '_', 's', 'e', 't', ':', ':', 'S', 'p', 'a', 'r', 's', 'e', 'S', 'e', 't', '<']
/-- `shipyard::unique::UniqueStorage<` -/
def uniquePath : List Char := ['s', 'h', 'i', 'p', 'y', 'a', 'r', 'd', ':', ':', 'u', 'n', 'i', 'q', 'u', 'e', ':', ':', 'U', 'n', 'i', 'q', 'u', 'e', 'S', 't', 'o', 'r', 'a', 'g', 'e', '<']

/-- `type_name` of the storage, as `borrow_info` records it (`src/borrow/borrow_info.rs:86-442`). -/
def StoType.name : StoType → List Char
  | .allStorages => allStoragesPath
  | .entities => entitiesPath
  | .sparseSet arg => sparseSetPath ++ arg ++ ['>']
  | .unique arg => uniquePath ++ arg ++ ['>']
  | .custom name => name

/-- `type_name::<UniqueStorage<ComponentType>>().split_once('<').unwrap().0`, `workload.rs:502-505`. The name of `ComponentType`
plays no role and is left out. -/
def uniqueName : List Char :=
  (StoType.unique []).name.takeWhile (· != '<')

/-- A parameter of a system. -/
inductive Param where
  | req (r : WReq)
  /-- `UniqueOrDefaultView(Mut)` -/
  | orDefault (s : Nat) (exclusive : Bool)
  /-- `UniqueOrInitView(Mut)` -/
  | orInit (s : Nat) (exclusive : Bool)

/-- `BorrowInfo::borrow_info` of a parameter: the storages and whether the view is exclusive. `UniqueOrDefaultView(Mut)` and
`UniqueOrInitView(Mut)` declare what `UniqueView(Mut)` does (`unique_or_default.rs:52-55`, `unique_or_init.rs:169-172`). -/
def Param.declares : Param → List (Nat × Bool)
  | .req (.views r) => r.leaves
  | .req (.allStorages exclusive) => [(allCell, exclusive)]
  | .orDefault s exclusive => [(s, exclusive)]
  | .orInit s exclusive => [(s, exclusive)]

/-- A system of a workload: its parameters and those of its `run_if` conditions. -/
structure USys where
  params : List Param
  conditions : List (List Param) := []

/-- `borrow_constraints`, `src/scheduler/into_workload_system.rs:126-135`: only the parameters of the system itself. -/
def USys.constraints (x : USys) : List (Nat × Bool) := x.params.flatMap Param.declares

/-- `check_uniques_in_systems`, `workload.rs:559-577`: `system` is the `borrow_constraints` of one system. -/
def checkUniques (types : Nat → StoType) (present : Nat → Bool) (system : List (Nat × Bool)) : Option (Nat × Bool) :=
  match system with
  | [] => none
  | l :: rest =>
    if uniqueName.isPrefixOf (types l.1).name && !present l.1 then some l else checkUniques types present rest

/-- The loop over the systems, `workload.rs:507-513`. -/
def checkSystems (types : Nat → StoType) (present : Nat → Bool) (systems : List (List (Nat × Bool))) : Option (Nat × Bool) :=
  match systems with
  | [] => none
  | system :: rest =>
    match checkUniques types present system with
    | some l => some l
    | none => checkSystems types present rest

/-- `Result<(), error::UniquePresence>`. -/
inductive Presence where
  | ok
  | allStorages
  | unique (l : Nat × Bool)
  deriving DecidableEq, Repr

/-- `Workload::are_all_uniques_present_in_world`, `workload.rs:482-517`. The
guard of `AllStorages` is dropped when it returns. -/
def Cells.uniquesPresent (st : Cells) (types : Nat → StoType) (systems : List USys) : Res (Cells × Presence) :=
  (st.guard allCell false).bind fun (st, got) =>
  if got = false then .ok (st, .allStorages)
  else
    let result := match checkSystems types st.present (systems.map USys.constraints) with
      | none => Presence.ok
      | some l => .unique l
    (st.dropGuard allCell false).map (·, result)

/-- `world_borrow` of `UniqueOrDefaultView(Mut)`, `unique_or_default.rs:29-48`, `unique_or_default_mut.rs:33-55`. -/
def Cells.orDefault (st : Cells) (s : Nat) (exclusive : Bool) : Res (Cells × Option View) :=
  (st.guard allCell false).bind fun (st, got) =>
  if got = false then .ok (st, none)
  else if st.present s = false then (st.create s).borrowView s exclusive false true true
  else
    (st.borrowView s exclusive false true false).bind fun (st, v) =>
    match v with
    | none => (st.dropAll true).map (·, none)
    | some v => (st.dropView v).bind fun st => st.borrowView s exclusive false true true

/-- `world_borrow` of `UniqueOrInitView(Mut)`, `unique_or_init.rs:140-167`, `unique_or_init_mut.rs:152-181`. The view keeps
`AllStorages` borrowed even without the unique. -/
def Cells.orInit (st : Cells) (s : Nat) (exclusive : Bool) : Res (Cells × Option View) :=
  (st.guard allCell false).bind fun (st, got) =>
  if got = false then .ok (st, none)
  else
    (st.cloneAll true).bind fun st =>
    let missing := st.present s = false
    (st.borrowView s exclusive false true true).bind fun (st, v) =>
    match v with
    | some v => .ok (st, some (.tuple [.opt (some v), .view allCell false false]))
    | none =>
      if missing then .ok (st, some (.tuple [.opt none, .view allCell false false]))
      else (st.dropAll true).map (·, none)

/-- The parameter of a system. -/
def Cells.param (st : Cells) : Param → Res (Cells × Option View)
  | .req r => st.worldBorrow r
  | .orDefault s exclusive => st.orDefault s exclusive
  | .orInit s exclusive => st.orInit s exclusive

/-- The parameters of a system, `src/scheduler/into_workload_system.rs:154`. -/
def Cells.takes (st : Cells) : List Param → Res (Cells × Option (List View))
  | [] => .ok (st, some [])
  | p :: ps =>
    (st.param p).bind fun (st, v) =>
    match v with
    | none => .ok (st, none)
    | some v =>
      (st.takes ps).bind fun (st, vs) =>
      match vs with
      | none => (st.dropView v).map (·, none)
      | some vs => .ok (st, some (v :: vs))

end Verif.Borrow

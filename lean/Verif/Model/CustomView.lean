import Verif.Model.BorrowViews
import Verif.Model.Iter
import Verif.Model.Track

/-!
# Custom views

Models the derive macros `Borrow`, `BorrowInfo`, `WorldBorrow` and `IntoIter` (`shipyard_proc/src/borrow_expand.rs`,
`borrow_info_expand.rs`, `world_borrow_expand.rs`, `into_iter_expand.rs`): what they read of a struct, and what the code they generate
does. Generics, lifetimes, visibilities and the name of the item type are not modelled. `Default::default()` does nothing.
-/
namespace Verif.Custom
open Borrow

/-- What can be written inside `#[shipyard(...)]`: a word, with a value or without. -/
inductive Key where
  | default | itemFieldSkip | itemFieldName | other
  deriving DecidableEq, Repr

structure Meta where
  key : Key
  value : Option (List Char)
  deriving DecidableEq, Repr

/-- One `#[shipyard(...)]`. The other attributes of a field are ignored by the macros. -/
abbrev Attr := List Meta

/-- The closure given to `parse_nested_meta`, `borrow_expand.rs:37-43`, `borrow_info_expand.rs:30-36`, `world_borrow_expand.rs:40-46`:
it never reads a value, so that parsing ends (with an error that is ignored) at the first word with a value. -/
def Attr.isDefault : Attr → Bool
  | [] => false
  | m :: ms => if m.key = .default then true else if m.value.isSome then false else Attr.isDefault ms

/-- `field_is_default`, `borrow_expand.rs:33-47`, `borrow_info_expand.rs:26-40`, `world_borrow_expand.rs:36-50`. -/
def isDefault (attrs : List Attr) : Bool := attrs.any Attr.isDefault

mutual
/-- The types of fields that implement `Borrow`, or any other type. -/
inductive Ty where
  | unit
  /-- as in `Req`; `kind` is the tracking type of a component view, `none` for views of entities and uniques -/
  | view (s : Nat) (exclusive create trackOk : Bool) (kind : Option Track.Kind)
  | opt (t : Ty)
  | tuple (ts : List Ty)
  /-- `#[derive(Borrow, BorrowInfo)] struct { .. }` -/
  | named (fs : Fields)
  /-- `#[derive(Borrow, BorrowInfo)] struct (..);` -/
  | unnamed (ts : List Ty)
  /-- not a view -/
  | plain
inductive Fields where
  | nil
  | cons (name : List Char) (attrs : List Attr) (t : Ty) (fs : Fields)
end

/-- What is held: as `View`, with the values of structs; `dflt` is `Default::default()`. -/
inductive Held where
  | unit
  | view (s : Nat) (exclusive all : Bool)
  | opt (v : Option Held)
  | tuple (vs : List Held)
  | struct (vs : List Held)
  | dflt

mutual
/-- Dropping a value drops its fields. -/
def dropHeld (st : Cells) : Held → Res Cells
  | .unit => .ok st
  | .view s exclusive all => (st.dropAll all).bind fun st => st.dropGuard s exclusive
  | .opt none => .ok st
  | .opt (some v) => dropHeld st v
  | .tuple vs => dropHelds st vs
  | .struct vs => dropHelds st vs
  | .dflt => .ok st
def dropHelds (st : Cells) : List Held → Res Cells
  | [] => .ok st
  | v :: vs => (dropHeld st v).bind fun st => dropHelds st vs
end

/-- One field after the other, with `?`: on an error, what was made so far is dropped. -/
def thenEach (v : Held) (rest : Res (Cells × Option (List Held))) : Res (Cells × Option (List Held)) :=
  rest.bind fun (st, vs) =>
  match vs with
  | none => (dropHeld st v).map (·, none)
  | some vs => .ok (st, some (v :: vs))

mutual
/-- `Borrow::borrow` of a type. Views, options and tuples: `src/borrow/mod.rs:95-677`. Structs: the generated function,
`borrow_expand.rs:65-75`, `86-94`. A type that is not a view does not compile. -/
def borrowTy (st : Cells) (all : Bool) : Ty → Res (Cells × Option Held)
  | .unit => (st.dropAll all).map (·, some .unit)
  | .view s exclusive create trackOk _ => (st.borrowView s exclusive create trackOk all).map fun (st, v) => (st, v.map fun _ => .view s exclusive all)
  | .opt t => (borrowTy st all t).map fun (st, v) => (st, some (.opt v))
  | .tuple ts => (borrowTys st all ts).bind fun (st, vs) => (st.dropAll all).map (·, vs.map .tuple)
  | .named fs => (borrowFields st all fs).bind fun (st, vs) => (st.dropAll all).map (·, vs.map .struct)
  | .unnamed ts => (borrowTys st all ts).bind fun (st, vs) => (st.dropAll all).map (·, vs.map .struct)
  | .plain => .error .oob
/-- `src/borrow/mod.rs:672`, `borrow_expand.rs:83`, `91`. -/
def borrowTys (st : Cells) (all : Bool) : List Ty → Res (Cells × Option (List Held))
  | [] => .ok (st, some [])
  | t :: ts =>
    (st.cloneAll all).bind fun st =>
    (borrowTy st all t).bind fun (st, v) =>
    match v with
    | none => .ok (st, none)
    | some v => thenEach v (borrowTys st all ts)
/-- `borrow_expand.rs:49-63`, `70-72`. -/
def borrowFields (st : Cells) (all : Bool) : Fields → Res (Cells × Option (List Held))
  | .nil => .ok (st, some [])
  | .cons _ attrs t fs =>
    if isDefault attrs then thenEach .dflt (borrowFields st all fs)
    else
      (st.cloneAll all).bind fun st =>
      (borrowTy st all t).bind fun (st, v) =>
      match v with
      | none => .ok (st, none)
      | some v => thenEach v (borrowFields st all fs)
end

mutual
/-- `BorrowInfo::borrow_info`: the storages, and the mutability. Views: `src/borrow/borrow_info.rs:73-450`. Options and tuples: 451-478.
Structs: `borrow_info_expand.rs:42-52`, `68-70`, `85-87`. -/
def borrowInfo : Ty → List (Nat × Bool)
  | .unit => []
  | .view s exclusive _ _ _ => [(s, exclusive)]
  | .opt t => borrowInfo t
  | .tuple ts => borrowInfos ts
  | .named fs => fieldInfos fs
  | .unnamed ts => borrowInfos ts
  | .plain => []
def borrowInfos : List Ty → List (Nat × Bool)
  | [] => []
  | t :: ts => borrowInfo t ++ borrowInfos ts
def fieldInfos : Fields → List (Nat × Bool)
  | .nil => []
  | .cons _ attrs t fs => (if isDefault attrs then [] else borrowInfo t) ++ fieldInfos fs
end

mutual
/-- `BorrowInfo::enable_tracking`: the storages whose tracking a workload turns on. Component views: `src/borrow/borrow_info.rs:149-346`.
Options and tuples: 455-459, 470-474. Structs: `borrow_info_expand.rs:53-64`, `71-75`, `88-92`. -/
def enableTracking : Ty → List (Nat × Track.Kind)
  | .unit => []
  | .view s _ _ _ kind => (kind.map fun k => (s, k)).toList
  | .opt t => enableTracking t
  | .tuple ts => enableTrackings ts
  | .named fs => fieldTrackings fs
  | .unnamed ts => enableTrackings ts
  | .plain => []
def enableTrackings : List Ty → List (Nat × Track.Kind)
  | [] => []
  | t :: ts => enableTracking t ++ enableTrackings ts
def fieldTrackings : Fields → List (Nat × Track.Kind)
  | .nil => []
  | .cons _ attrs t fs => (if isDefault attrs then [] else enableTracking t) ++ fieldTrackings fs
end

mutual
/-- The types that implement `WorldBorrow`. -/
inductive WTy where
  | views (t : Ty)
  | allStorages (exclusive : Bool)
  /-- `#[derive(WorldBorrow)] struct { .. }` -/
  | named (fs : WFields)
  /-- `#[derive(WorldBorrow)] struct (..);` -/
  | unnamed (ts : List WTy)
inductive WFields where
  | nil
  /-- a field marked with `default` can have any type -/
  | plain (name : List Char) (attrs : List Attr) (fs : WFields)
  | cons (name : List Char) (attrs : List Attr) (t : WTy) (fs : WFields)
end

mutual
/-- `WorldBorrow::world_borrow`. `impl<T: Borrow>`: `src/borrow/world_borrow.rs:21-40`; views of `AllStorages`: 42-73; structs:
`world_borrow_expand.rs:68-78`, `86-94`. -/
def worldBorrowTy (st : Cells) : WTy → Res (Cells × Option Held)
  | .views t =>
    (st.guard allCell false).bind fun (st, got) =>
    if got = false then .ok (st, none) else borrowTy st true t
  | .allStorages exclusive =>
    (st.guard allCell exclusive).map fun (st, got) => (st, if got then some (.view allCell exclusive false) else none)
  | .named fs => (worldBorrowFields st fs).map fun (st, vs) => (st, vs.map .struct)
  | .unnamed ts => (worldBorrowTys st ts).map fun (st, vs) => (st, vs.map .struct)
/-- `world_borrow_expand.rs:83`, `91`; also the parameters of a system, `src/scheduler/into_workload_system.rs:154`. -/
def worldBorrowTys (st : Cells) : List WTy → Res (Cells × Option (List Held))
  | [] => .ok (st, some [])
  | t :: ts =>
    (worldBorrowTy st t).bind fun (st, v) =>
    match v with
    | none => .ok (st, none)
    | some v => thenEach v (worldBorrowTys st ts)
/-- `world_borrow_expand.rs:52-66`, `73-75`. -/
def worldBorrowFields (st : Cells) : WFields → Res (Cells × Option (List Held))
  | .nil => .ok (st, some [])
  | .plain _ attrs fs => if isDefault attrs then thenEach .dflt (worldBorrowFields st fs) else .error .oob
  | .cons _ attrs t fs =>
    if isDefault attrs then thenEach .dflt (worldBorrowFields st fs)
    else
      (worldBorrowTy st t).bind fun (st, v) =>
      match v with
      | none => .ok (st, none)
      | some v => thenEach v (worldBorrowFields st fs)
end

/-! ## `IntoIter` -/

/-- The type of a field as `syn` shows it: a path, with its last segment, or something else: a tuple, a reference, a type that comes
from a `macro_rules!` variable. -/
inductive Shape where
  | view | viewMut | otherPath | notPath
  deriving DecidableEq, Repr

structure IterField where
  name : List Char
  attrs : List Attr
  shape : Shape

/-- `str::trim_start_matches`: the prefix is removed as long as there is one. -/
def trimStart (prefix_ : List Char) : Nat → List Char → List Char
  | 0, s => s
  | fuel + 1, s => if prefix_.isPrefixOf s && !prefix_.isEmpty then trimStart prefix_ fuel (s.drop prefix_.length) else s

/-- The closure of `into_iter_expand.rs:98-115`: is the field skipped, its name. `none` is a compile error. -/
def iterAttr : Attr → Bool × Option (List Char) → Option (Bool × Option (List Char))
  | [], r => some r
  | ⟨.itemFieldSkip, none⟩ :: ms, r => iterAttr ms (true, r.2)
  | ⟨.itemFieldName, some n⟩ :: ms, r => iterAttr ms (r.1, some n)
  | _ :: _, _ => none

/-- One turn of the loop `into_iter_expand.rs:87-233`: the name of the field in the item, `none` inside when there is none. -/
def iterField (f : IterField) : Option (Option (List Char)) :=
  if f.shape = .notPath then some none
  else
    match (match f.attrs.head? with | none => some (false, none) | some a => iterAttr a (false, none)) with
    | none => none
    | some (true, _) => some none
    | some (false, over) =>
      match f.shape with
      | .view => some (some (over.getD (trimStart "v_".toList f.name.length f.name)))
      | .viewMut => some (some (over.getD (trimStart "vm_".toList f.name.length f.name)))
      | _ => none

/-- The loop: the positions of the fields that are iterated (`iter_fields_access`) and the names of the fields of the item
(`iter_fields_variable`). -/
def iterFields : Nat → List IterField → Option (List (Nat × List Char))
  | _, [] => some []
  | k, f :: fs =>
    match iterField f, iterFields (k + 1) fs with
    | some none, some l => some l
    | some (some n), some l => some ((k, n) :: l)
    | _, _ => none

/-- `into_iter_expand.rs:73-233` for a struct with named fields. A struct without fields is refused (75-80); so is one of which no
field is left: there is no `IntoShiperator` for `()`. Two fields of the item with one name are refused by the compiler. -/
def expandIter (fs : List IterField) : Option (List (Nat × List Char)) :=
  match iterFields 0 fs with
  | some [] => none
  | some l => if (l.map (·.2)).Nodup then some l else none
  | none => none

variable {V : Type}

/-- `into_shiperator` of `&mut` the struct (`into_iter_expand.rs:256-260`): the tuple of the views. With one field the parentheses
make no tuple. `ws` are the views of the fields. -/
def customQry (ws : Nat → Iter.Win V) (l : List (Nat × List Char)) : Iter.Qry V :=
  match l with
  | [p] => .view (ws p.1)
  | _ => .tup (l.map fun p => .view (ws p.1))

/-- `get_captain_data`, `get_sailor_data` (`into_iter_expand.rs:279-283`, `310-314`): the tuple is taken apart, each part gets its
name. -/
def customItem (l : List (Nat × List Char)) (o : Iter.Out V) : List (List Char × Iter.Out V) :=
  match l with
  | [p] => [(p.2, o)]
  | _ => match o with
    | .tup os => (l.map (·.2)).zip os
    | _ => []

end Verif.Custom

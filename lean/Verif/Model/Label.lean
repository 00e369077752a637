import Verif.Model.Workload
import Mathlib.Data.Nat.Pairing

/-!
# Labels as they are in the code

Models `src/scheduler/label.rs`, `UniqueSystemId` (`src/scheduler/workload/create_workload.rs:370-398`), the derived labels
(`shipyard_proc/src/label_expand.rs`) and `DedupedLabels` (`src/scheduler/info.rs:174-262`).

`dyn Label` is a closed list of kinds here: the ones of the crate and `custom t v`, the value `v` of a user type `t` that
derives `Label`, whose `==`, `Hash` and `Clone` are those of the values. A text is a number. What is written to a `Hasher`
is a list of numbers. `Label` of `Model/Workload.lean` is what is left when `dyn_eq` is taken for equality (`canon`).
-/
namespace Verif.Sched

/-- The three text types, `src/scheduler/label.rs:51`. -/
inductive TextKind where
  | str | string | cow
  deriving DecidableEq, Repr

def TextKind.num : TextKind → Nat
  | .str => 0
  | .string => 1
  | .cow => 2

/-- Values of type `dyn Label`; `boxed` is `impl Label for Box<dyn Label>` (74-90). -/
inductive RLabel where
  | text (k : TextKind) (s : Nat)
  | custom (t v : Nat)
  | typeId (t : Nat)
  | boxed (l : RLabel)
  | sequential (l : RLabel)
  | system (t : Nat) (name : RLabel)
  | workload (t : Nat) (name : RLabel)
  | unique (n : Nat)
  deriving DecidableEq, Repr

namespace RLabel

/-- `as_any`, lines 28, 54, 75, 143, 177, 211: boxes show what is in them. -/
def asAny : RLabel → RLabel
  | .boxed l => l.asAny
  | l => l

/-- The `TypeId` of `as_any()`. -/
def tag : RLabel → Nat
  | .text k _ => k.num
  | .custom t _ => 10 + t
  | .typeId _ => 3
  | .boxed _ => 4
  | .sequential _ => 5
  | .system _ _ => 6
  | .workload _ _ => 7
  | .unique _ => 8

/-- `dyn_eq`, `src/scheduler/label.rs:31-37, 57-63, 78-80, 148-154, 182-188, 216-222`,
`create_workload.rs:378-384`, `label_expand.rs:12-18`: the other label seen through `as_any` must be of the same type. -/
def dynEq : RLabel → RLabel → Bool
  | .boxed a, o => dynEq a o
  | .text k s, o => match o.asAny with
    | .text k' s' => decide (k = k') && decide (s = s')
    | _ => false
  | .custom t v, o => match o.asAny with
    | .custom t' v' => decide (t = t') && decide (v = v')
    | _ => false
  | .typeId t, o => match o.asAny with
    | .typeId t' => decide (t = t')
    | _ => false
  | .sequential a, o => match o.asAny with
    | .sequential b => dynEq a b
    | _ => false
  | .system t _, o => match o.asAny with
    | .system t' _ => decide (t = t')
    | _ => false
  | .workload t _, o => match o.asAny with
    | .workload t' _ => decide (t = t')
    | _ => false
  | .unique n, o => match o.asAny with
    | .unique n' => decide (n = n')
    | _ => false

/-- `dyn_hash`, lines 38-40, 64-66, 81-83, 156-158, 190-192, 224-226, `create_workload.rs:386-388`: what is written. The derived
hash of `SequentialLabel` writes the hash of the inner `Box<dyn Label>`, which starts with its type. -/
def dynHash : RLabel → List Nat
  | .boxed a => dynHash a
  | .text _ s => [s]
  | .custom _ v => [v]
  | .typeId t => [t]
  | .sequential a => a.asAny.tag :: dynHash a
  | .system t _ => [t]
  | .workload t _ => [t]
  | .unique n => [n]

/-- `impl Hash for dyn Label`, lines 99-104. -/
def hash (l : RLabel) : List Nat := l.asAny.tag :: l.dynHash

/-- `dyn_clone`, lines 41-43, 67-69, 84-86, 160-162, 194-196, 228-230; `Box<dyn Label>::clone` (92-97) is `dyn_clone` of
the content. -/
def dynClone : RLabel → RLabel
  | .boxed a => dynClone a
  | .text k s => .text k s
  | .custom t v => .custom t v
  | .typeId t => .typeId t
  | .sequential a => .sequential (dynClone a)
  | .system t n => .system t (dynClone n)
  | .workload t n => .workload t (dynClone n)
  | .unique n => .unique n

end RLabel

/-- The text `format!("{:?}", label)` gives, as a tree. -/
inductive Shown where
  | text (s : Nat)
  | custom (t v : Nat)
  | typeId (t : Nat)
  | sequential (d : Shown)
  | system (d : Shown)
  | workload (d : Shown)
  | unique (n : Nat)
  deriving DecidableEq, Repr

/-- `dyn_debug`, lines 44-46, 70-72, 87-89, 164-166, 198-200, 232-234. -/
def RLabel.shown : RLabel → Shown
  | .boxed a => a.shown
  | .text _ s => .text s
  | .custom t v => .custom t v
  | .typeId t => .typeId t
  | .sequential a => .sequential a.shown
  | .system _ n => .system n.shown
  | .workload _ n => .workload n.shown
  | .unique n => .unique n

/-- `src/scheduler/info.rs:189-200` `DedupedLabels::add`: whether the label was new. -/
def dedupAdd (ls : List RLabel) (l : RLabel) : List RLabel × Bool :=
  if ls.any (fun x => x.dynEq l) then (ls, false) else (ls ++ [l], true)

/-- `src/scheduler/info.rs:248-262` `extend` (both versions). -/
def dedupExtend (ls new : List RLabel) : List RLabel := new.foldl (fun ls l => (dedupAdd ls l).1) ls

/-- A hash map whose keys are labels (`ShipHashMap<Box<dyn Label>, _>`): buckets chosen by the hash, searched with `==`. The
map of `hashbrown` is more clever; it too only compares keys whose hashes agree. -/
abbrev LabelMap (β : Type) := Nat → List (RLabel × β)

/-- `HashMap::get`. -/
def LabelMap.get {β : Type} (hasher : List Nat → Nat) (m : LabelMap β) (k : RLabel) : Option β :=
  ((m (hasher k.hash)).find? fun p => p.1.dynEq k).map (·.2)

/-- `HashMap::insert`: an equal key keeps its place and gets the new value. -/
def LabelMap.insert {β : Type} (hasher : List Nat → Nat) (m : LabelMap β) (k : RLabel) (v : β) : LabelMap β := fun b =>
  if b = hasher k.hash then
    if (m b).any (fun p => p.1.dynEq k) then (m b).map fun p => if p.1.dynEq k then (p.1, v) else p
    else m b ++ [(k, v)]
  else m b

/-- `HashMap::remove`. -/
def LabelMap.remove {β : Type} (hasher : List Nat → Nat) (m : LabelMap β) (k : RLabel) : LabelMap β := fun b =>
  if b = hasher k.hash then (m b).filter fun p => !p.1.dynEq k else m b

/-- The label of the model of workloads for a label of the code. -/
def RLabel.canon : RLabel → Label
  | .boxed a => a.canon
  | .text k s => .str (2 * Nat.pair k.num s)
  | .custom t v => .str (2 * Nat.pair t v + 1)
  | .typeId t => .typeId t
  | .sequential a => .sequential a.canon
  | .system t _ => .system t
  | .workload t _ => .workload t
  | .unique n => .unique n

end Verif.Sched

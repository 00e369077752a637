import Verif.Spec.Tracking
import Verif.Spec.Lives
import Verif.Model.Iter

/-!
# What a user may rely on about iteration

A query is read as a function from entities to at most one item: `item`. Nothing here mentions which
storage drives the iteration, positions, slices or indices.
-/
namespace Verif.IterSpec
open StoSpec TrkSpec Iter
variable {V : Type}

/-- The row an entity has in a storage. -/
def rowAt (a : Sto V) (e : EId) : Option (Row V) :=
  match a.rows e.idx with
  | some r => if r.gen = e.gen then some r else none
  | none => none

/-- Does the filter hold of a component, in the window of the view? -/
def Holds (k : Flag) (w : Win V) (r : Row V) : Prop :=
  match k with
  | .inserted => InWindow r.ins w.lastInsertion w.current
  | .modified => InWindow r.mod w.lastModification w.current
  | .either => InWindow r.ins w.lastInsertion w.current ∨ InWindow r.mod w.lastModification w.current
instance (t l c : Nat) : Decidable (InWindow t l c) := inferInstanceAs (Decidable (_ ∧ _))
instance (k : Flag) (w : Win V) (r : Row V) : Decidable (Holds k w r) := by
  unfold Holds; cases k <;> infer_instance

mutual
/-- The item of entity `e`, if it matches the query. `st w` is the contents of the storage viewed by
`w`.
- a view matches the entities having the component;
- a list of ids matches its members;
- `as_optional` matches everything, `!view` the entities without the component;
- a filter matches the entities having the component for which it holds (`neg`: does not hold);
- `a | b` prefers `a`;
- a tuple matches when all its members do; `(x,)` is `x`. -/
def item (st : Win V → Sto V) : Qry V → EId → Option (Out V)
  | .view w, e => (rowAt (st w) e).map fun r => .comp r.val
  | .ids l, e => if e ∈ l then some (.id e) else none
  | .opt w, e => some (.maybe ((rowAt (st w) e).map (·.val)))
  | .absent w _, e => if (rowAt (st w) e).isSome then none else some .unit
  | .flag k false w, e => (rowAt (st w) e).bind fun r => if Holds k w r then some (.comp r.val) else none
  | .flag k true w, e => (rowAt (st w) e).bind fun r => if Holds k w r then none else some (.comp r.val)
  | .or a b, e =>
    match item st a e with
    | some o => some (.one o)
    | none => (item st b e).map .two
  | .tup [q], e => item st q e
  | .tup l, e => (itemsOf st l e).map .tup
def itemsOf (st : Win V → Sto V) : List (Qry V) → EId → Option (List (Out V))
  | [], _ => some []
  | q :: l, e => (item st q e).bind fun o => (itemsOf st l e).map (o :: ·)
end

/-- The window comes from a view (`Win.ofView`) of a storage that lived some life, and `a` is what the
specification says about that storage. No component was inserted over the one of a dead entity. -/
def Reads (w : Win V) (a : Sto V) : Prop := (∃ v : Tracking.View V, w = Win.ofView v) ∧ Lives w.set a

/-- The storage tracks what the filter asks for. -/
def Tracks (k : Flag) (a : Sto V) : Prop :=
  match k with
  | .inserted => a.trkIns = true
  | .modified => a.trkMod = true
  | .either => a.trkIns = true ∧ a.trkMod = true

mutual
/-- No `|` inside. -/
def orFree : Qry V → Bool
  | .or _ _ => false
  | .tup l => orFrees l
  | _ => true
def orFrees : List (Qry V) → Bool
  | [] => true
  | q :: l => orFree q && orFrees l
end

/-- A view or a filter. -/
def isLeaf : Qry V → Bool
  | .view _ | .flag _ _ _ => true
  | _ => false

mutual
/-- The queries the theorems are about:
- views are views of storages; ids are valid and not repeated;
- filters are made on storages that track what they ask for;
- on the left of `|` there is a view or a filter (nothing else is accepted by `BitOr`), on its right no other `|`,
  and something that can be iterated on its own and is not a list of ids;
- tuples are such that building the iterator does not panic with a message: some member can be
  iterated on its own, and at most one needs to drive the iteration. -/
def Fine (st : Win V → Sto V) : Qry V → Prop
  | .view w | .opt w | .absent w _ => Reads w (st w)
  | .ids l => l.Nodup ∧ ∀ e ∈ l, Valid e
  | .flag k _ w => Reads w (st w) ∧ Tracks k (st w)
  | .or a b => isLeaf a = true ∧ orFree b = true ∧ b.canCaptain = true ∧ b.canSailor = true ∧
      Fine st a ∧ Fine st b
  | .tup l => Fines st l ∧ (∃ q ∈ l, q.canCaptain = true) ∧ (l.filter (fun q => !q.canSailor)).length ≤ 1
def Fines (st : Win V → Sto V) : List (Qry V) → Prop
  | [] => True
  | q :: l => Fine st q ∧ Fines st l
end

mutual
/-- In each tuple without ids, some member that can be iterated on its own announces less than
`usize::MAX` steps, and no announced sum overflows. Storages hold less than 2^59 components, so that only a member
with `!&mut view` in it can be excluded: `C29_sails`. -/
def Sails (r : Rnd) : Qry V → Prop
  | .or a b => Sails r a ∧ Sails r b
  | .tup l => Sailss r l ∧
      (∃ q ∈ l, q.canCaptain = true ∧ ∀ s n acc, q.intoShip r = .ok (s, n, acc) → s.sailTime r < usizeMax) ∧
      ∀ q ∈ l, ∀ s n acc, q.intoShip r = .ok (s, n, acc) → s.sailOver r = false
  | _ => True
def Sailss (r : Rnd) : List (Qry V) → Prop
  | [] => True
  | q :: l => Sails r q ∧ Sailss r l
end

/-- `items` is the result a query should have: each matching entity once, with its item. -/
def Exactly (st : Win V → Sto V) (q : Qry V) (items : List (EId × Out V)) : Prop :=
  (items.map (·.1)).Nodup ∧ ∀ e o, (e, o) ∈ items ↔ item st q e = some o

/-! ## Taking items from both ends -/

/-- One call on an iterator. -/
inductive End where
  | front | back
  deriving DecidableEq, Repr

/-- The results of a sequence of calls on a list, and what remains of it. -/
def pulls {α : Type} : List End → List α → List (Option α) × List α
  | [], l => ([], l)
  | .front :: ops, l => match pulls ops l.tail with
    | (rs, rest) => (l.head? :: rs, rest)
  | .back :: ops, l => match pulls ops l.dropLast with
    | (rs, rest) => (l.getLast? :: rs, rest)

/-- The same calls on an iterator. -/
def calls {V : Type} : List End → It V → Res (List (Option (Out V)) × It V)
  | [], it => .ok ([], it)
  | c :: ops, it =>
    match (match c with | .front => it.next | .back => it.nextBack) with
    | .error f => .error f
    | .ok (r, it) => (calls ops it).map fun x => (r :: x.1, x.2)

/-- The items given by the calls made at one end, in order. -/
def given {α : Type} (s : End) : List End → List (Option α) → List α
  | c :: ops, r :: rs => (if c = s then r.toList else []) ++ given s ops rs
  | _, _ => []

/-- `next` called `n` times on an iterator with ids. -/
def nextsId {V : Type} : Nat → It V → Res (List (Option (EId × Out V)) × It V)
  | 0, it => .ok ([], it)
  | n + 1, it =>
    match it.nextId with
    | .error f => .error f
    | .ok (r, it) => (nextsId n it).map fun x => (r :: x.1, x.2)

/-- Any way of splitting for parallel iteration: a leaf is given to a thread, a node is split further (if the
iterator accepts). -/
inductive Splits where
  | leaf
  | node (l r : Splits)

/-- The iterators at the leaves, from left to right. -/
def Splits.parts {V : Type} : Splits → It V → List (It V)
  | .leaf, it => [it]
  | .node l r, it =>
    match it.split with
    | (a, none) => [a]
    | (a, some b) => l.parts a ++ r.parts b

/-- Run all of them to the end, gathering the items. -/
def runAll {V : Type} : List (It V) → Res (List (Out V))
  | [] => .ok []
  | it :: l => match it.fold with
    | .error f => .error f
    | .ok os => (runAll l).map (os ++ ·)

end Verif.IterSpec

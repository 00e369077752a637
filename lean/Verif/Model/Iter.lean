import Verif.Model.Tracking

/-!
# Iteration

Models `src/iter/**`, `src/sparse_set/window.rs`, `src/or.rs`, `src/not.rs`, `src/optional.rs` and
`src/iter_component.rs`.

All storages of a query hold components of one type `V` (a sum of the component types). What an iterator
hands out (`&T`, `&mut T`, `Mut<T>`) is represented by the value behind the reference. Raw pointers are
lists: reading past the end is `Fault.oob`.
-/
namespace Verif.Iter
variable {V : Type}

/-- `usize::MAX`. -/
def usizeMax : Nat := 2 ^ 64 - 1

/-! ## Windows -/

/-- `src/sparse_set/window.rs:11-23` `FullRawWindow`, `163-176` `FullRawWindowMut`: the raw pointers point into
`set`; `sparseLen` is the number of pages the window believes `sparse` has. -/
structure Win (V : Type) where
  set : SparseSet V
  sparseLen : Nat
  lastInsertion : Nat
  lastModification : Nat
  current : Nat

namespace Win

/-- `src/sparse_set/window.rs:29-47` `from_view`, `87-105` `from_view_mut`, `182-201` `new`. -/
def ofView (v : Tracking.View V) : Win V :=
  ⟨v.set, v.set.sparse.length, v.lastInsertion, v.lastModification, v.current⟩

/-- `src/sparse_set/window.rs:50-84` `from_owned_view`, `204-240` `new_owned`: `sparse_len` is
`sparse_set.len()`, the number of components. -/
def ofOwned (v : Tracking.View V) : Win V :=
  ⟨v.set, v.set.dense.length, v.lastInsertion, v.lastModification, v.current⟩

/-- `src/sparse_set/window.rs:119-131`, `254-266` `sparse_index`. -/
def sparseIndex (w : Win V) (e : EId) : Res (Option EId) :=
  if e.bucket < w.sparseLen then
    match w.set.sparse[e.bucket]? with
    | none => .error .oob
    | some none => .ok none
    | some (some p) => match p[e.bucketIndex]? with
      | some x => .ok (some x)
      | none => .error .oob
  else .ok none

/-- `src/sparse_set/window.rs:108-116`, `243-251` `index_of`. -/
def indexOf (w : Win V) (e : EId) : Res (Option Nat) :=
  match w.sparseIndex e with
  | .error f => .error f
  | .ok none => .ok none
  | .ok (some x) => if e.gen = x.gen then .ok (some x.idx) else .ok none

/-- `&*self.data.add(index)`. -/
def data (w : Win V) (i : Nat) : Res V := vecGetU w.set.data i

/-- `*insertion_data.add(index)).is_within(last_insertion, current)`. -/
def insertedAt (w : Win V) (i : Nat) : Res Bool :=
  (vecGetU w.set.insertionData i).map fun t => Tracking.isWithin t w.lastInsertion w.current

/-- `*modification_data.add(index)).is_within(last_modification, current)`. -/
def modifiedAt (w : Win V) (i : Nat) : Res Bool :=
  (vecGetU w.set.modificationData i).map fun t => Tracking.isWithin t w.lastModification w.current

end Win

/-- The wrappers `Inserted`, `Modified`, `InsertedOrModified`
(`src/advanced/tracking/iterator_wrapper.rs`). -/
inductive Flag where
  | inserted | modified | either
  deriving DecidableEq, Repr

/-- The test made by `indices_of` of a tracking wrapper. -/
def Flag.test (k : Flag) (w : Win V) (i : Nat) : Res Bool :=
  match k with
  | .inserted => w.insertedAt i
  | .modified => w.modifiedAt i
  | .either =>
    match w.insertedAt i with
    | .error f => .error f
    | .ok true => .ok true
    | .ok false => w.modifiedAt i

/-! ## Shiperators -/

/-- The types implementing `ShiperatorCaptain` and `ShiperatorSailor`. `mask` of `Mixed`
(`src/iter/mixed.rs:10-13`) is 0 or `1 << k`: the position `k` of the captain, if any. -/
inductive Ship (V : Type) where
  /-- `FullRawWindow`, `FullRawWindowMut` -/
  | view (w : Win V)
  /-- `&[EntityId]` -/
  | ids (l : List EId)
  /-- `Optional<..>` -/
  | opt (w : Win V)
  /-- `Not<FullRawWindow>`; `Not<FullRawWindowMut>` when `excl` -/
  | absent (w : Win V) (excl : Bool)
  /-- `Inserted<..>` and the others; `Not<Inserted<..>>` when `neg` -/
  | flag (k : Flag) (neg : Bool) (w : Win V)
  /-- `OrWindow` (`src/or.rs:92-96`) -/
  | or (a b : Ship V) (captain past : Bool)
  /-- `Mixed` -/
  | mixed (l : List (Ship V)) (mask : Option Nat)

/-- The associated types `Index`. -/
inductive Ix where
  | at (i : Nat)
  | id (e : EId)
  | maybe (o : Option Nat)
  | one (i : Ix)
  | two (i : Ix)
  | tup (l : List Ix)

/-- The associated types `Out`. -/
inductive Out (V : Type) where
  | comp (v : V)
  | id (e : EId)
  | maybe (o : Option V)
  | unit
  | one (o : Out V)
  | two (o : Out V)
  | tup (l : List (Out V))

/-- The `f32` roundings of `sail_time`: `as f32 as usize`, `* 0.5`, `* 2.0`, `* 1.2`. They only influence
which storage drives the iteration; every theorem holds for arbitrary functions. -/
structure Rnd where
  same : Nat → Nat
  half : Nat → Nat
  twice : Nat → Nat
  notFactor : Nat → Nat

namespace Ship

mutual
/-- `sail_time`: `src/iter/captain.rs:46-48`, `72-74`, `107-109`, `132-134`, `150-152`, `172-174`,
`src/iter/captain/not.rs:20-22`, `45-47`, `71-73`, `src/iter/captain/or.rs:16-18`,
`src/iter/captain/tracking.rs:19-21`, `src/iter/mixed.rs:54-65`. The sums are exact here: `sailOver` tells when they
overflow `usize`. -/
def sailTime (r : Rnd) : Ship V → Nat
  | .view w => w.set.dense.length
  | .ids l => l.length
  | .opt w => w.set.dense.length
  | .absent w false => r.notFactor w.set.dense.length
  | .absent _ true => usizeMax
  | .flag _ false w => r.twice w.set.dense.length
  | .flag _ true w => r.notFactor (r.twice w.set.dense.length)
  | .or a b _ _ => a.sailTime r + b.sailTime r
  | .mixed l mask => sailTimes r l mask 0
def sailTimes (r : Rnd) : List (Ship V) → Option Nat → Nat → Nat
  | [], _, _ => 0
  | s :: l, mask, i =>
    (if mask = some i then r.same (s.sailTime r) else r.half (s.sailTime r)) + sailTimes r l mask (i + 1)
end

mutual
/-- Whether a sum of `sail_time` overflows `usize`, which panics in a debug build (a release build wraps, which is
not modelled): `src/iter/captain/or.rs:16-18`, `src/iter/mixed.rs:54-65`. All terms are at least 0, so that some
partial sum overflows when and only when the whole sum does. -/
def sailOver (r : Rnd) : Ship V → Bool
  | .or a b _ _ => a.sailOver r || b.sailOver r || decide (a.sailTime r + b.sailTime r > usizeMax)
  | .mixed l mask => sailOvers r l || decide (sailTimes r l mask 0 > usizeMax)
  | _ => false
def sailOvers (r : Rnd) : List (Ship V) → Bool
  | [] => false
  | s :: l => s.sailOver r || sailOvers r l
end

/-- `is_exact_sized`: `true` for windows (`src/iter/captain.rs:51-53`, `77-79`, `112-114`), for `Mixed` when the
mask flags every member (`src/iter/mixed.rs:68-71`), `false` for the others. -/
def isExact : Ship V → Bool
  | .view _ => true
  | .mixed l mask => (if mask.isSome then 1 else 0) == l.length
  | _ => false

mutual
/-- `unpick`: `src/iter/captain/or.rs:26-30`, `src/iter/mixed.rs:74-80`; nothing for the leaves. -/
def unpick : Ship V → Ship V
  | .or a b _ past => .or a.unpick b.unpick false past
  | .mixed l _ => .mixed (unpicks l) none
  | s => s
def unpicks : List (Ship V) → List (Ship V)
  | [] => []
  | s :: l => s.unpick :: unpicks l
end

mutual
/-- `next_slice`: `src/iter/captain/or.rs:11-13` (not forwarded to the members), `src/iter/mixed.rs:46-50`
(forwarded). -/
def nextSlice : Ship V → Ship V
  | .or a b captain _ => .or a b captain true
  | .mixed l mask => .mixed (nextSlices l) mask
  | s => s
def nextSlices : List (Ship V) → List (Ship V)
  | [] => []
  | s :: l => s.nextSlice :: nextSlices l
end

mutual
/-- `get_captain_data`: `src/iter/captain.rs:38-40`, `64-66`, `95-101`, `126-128`, `src/iter/mixed.rs:39-43`;
`unreachable!()` for the others. -/
def captainData : Ship V → Nat → Res (Out V)
  | .view w, i => (w.data i).map .comp
  | .ids l, i => (vecGetU l i).map .id
  | .mixed l _, i => (captainDatas l i).map .tup
  | _, _ => .error .panic
def captainDatas : List (Ship V) → Nat → Res (List (Out V))
  | [], _ => .ok []
  | s :: l, i =>
    match s.captainData i with
    | .error f => .error f
    | .ok o => (captainDatas l i).map (o :: ·)
end

mutual
/-- `index_from_usize`: the index itself for windows, `Not` and tracking wrappers
(`src/iter/sailor.rs:50-52`, `src/iter/sailor/not.rs:25-27`, `src/iter/sailor/tracking.rs:32-34`),
memberwise for `Mixed` (`src/iter/mixed.rs:125-129`), `unreachable!()` for `&[EntityId]`, `Optional` and
`Or`. -/
def fromUsize : Ship V → Nat → Res Ix
  | .view _, i => .ok (.at i)
  | .absent _ _, i => .ok (.at i)
  | .flag _ _ _, i => .ok (.at i)
  | .mixed l _, i => (fromUsizes l i).map .tup
  | _, _ => .error .panic
def fromUsizes : List (Ship V) → Nat → Res (List Ix)
  | [], _ => .ok []
  | s :: l, i =>
    match s.fromUsize i with
    | .error f => .error f
    | .ok x => (fromUsizes l i).map (x :: ·)
end

/-- Keep the index if the test of a tracking wrapper says so. -/
def keepIf (neg : Bool) (i : Nat) : Res Bool → Res (Option Ix)
  | .error f => .error f
  | .ok b => .ok (if b = neg then none else some (.at i))

mutual
/-- `indices_of`: `src/iter/sailor.rs:45-47`, `67-69`, `98-100`, `122-124`, `145-147`, `169-171`,
`src/iter/sailor/not.rs:16-22` and the others of that file, `src/iter/sailor/tracking.rs:17-29` and the others,
`src/iter/sailor/or.rs:19-49`, `src/iter/mixed.rs:94-122`. -/
def indicesOf : Ship V → EId → Nat → Res (Option Ix)
  | .view w, e, _ => (w.indexOf e).map (·.map .at)
  | .ids _, e, _ => .ok (some (.id e))
  | .opt w, e, _ => (w.indexOf e).map fun o => some (.maybe o)
  | .absent w _, e, _ => (w.indexOf e).map fun o => if o.isSome then none else some (.at usizeMax)
  | .flag k neg w, e, _ =>
    match w.indexOf e with
    | .error f => .error f
    | .ok none => .ok none
    | .ok (some i) => keepIf neg i (k.test w i)
  | .or a b true true, e, i =>
    match b.indicesOf e i with
    | .error f => .error f
    | .ok none => .ok none
    | .ok (some ix) =>
      match a.indicesOf e 0 with
      | .error f => .error f
      | .ok (some _) => .ok none
      | .ok none => .ok (some (.two ix))
  | .or a _ true false, e, i => (a.indicesOf e i).map (·.map .one)
  | .or a b false _, e, i =>
    match a.indicesOf e i with
    | .error f => .error f
    | .ok x =>
      match b.indicesOf e i with
      | .error f => .error f
      | .ok y => .ok (match x, y with
        | none, none => none
        | none, some iy => some (.two iy)
        | some ix, _ => some (.one ix))
  | .mixed l mask, e, i => (indicesOfs l mask 0 e i).map (·.map .tup)
/-- The members from position `j` on; the captain's index is `i`. -/
def indicesOfs : List (Ship V) → Option Nat → Nat → EId → Nat → Res (Option (List Ix))
  | [], _, _, _, _ => .ok (some [])
  | s :: l, mask, j, e, i =>
    match (if mask = some j then (s.fromUsize i).map some else s.indicesOf e i) with
    | .error f => .error f
    | .ok none => .ok none
    | .ok (some x) => (indicesOfs l mask (j + 1) e i).map (·.map (x :: ·))
end

mutual
/-- `get_sailor_data`: `src/iter/sailor.rs:40-42`, `62-64`, `89-95`, `117-119`, `136-142`, `164-166`,
`src/iter/sailor/not.rs`, `src/iter/sailor/tracking.rs`, `src/iter/sailor/or.rs:11-16`,
`src/iter/mixed.rs:87-91`. Indices of the wrong type do not exist in Rust; they are `panic` here. -/
def sailorData : Ship V → Ix → Res (Out V)
  | .view w, .at i => (w.data i).map .comp
  | .ids _, .id e => .ok (.id e)
  | .opt _, .maybe none => .ok (.maybe none)
  | .opt w, .maybe (some i) => (w.data i).map fun v => .maybe (some v)
  | .absent _ _, .at _ => .ok .unit
  | .flag _ _ w, .at i => (w.data i).map .comp
  | .or a _ _ _, .one ix => (a.sailorData ix).map .one
  | .or _ b _ _, .two ix => (b.sailorData ix).map .two
  | .mixed l _, .tup ixs => (sailorDatas l ixs).map .tup
  | _, _ => .error .panic
def sailorDatas : List (Ship V) → List Ix → Res (List (Out V))
  | [], [] => .ok []
  | s :: l, ix :: ixs =>
    match s.sailorData ix with
    | .error f => .error f
    | .ok o => (sailorDatas l ixs).map (o :: ·)
  | _, _ => .error .panic
end

end Ship

/-! ## Ids driving the iteration -/

/-- `src/sparse_set/window.rs:300-303` `RawEntityIdAccess`: `ptr` is the start of `slice`. -/
structure Acc where
  slice : List EId
  rest : List (List EId × Nat)

namespace Acc

/-- `src/sparse_set/window.rs:323-328` `dangling`. -/
def dangling : Acc := ⟨[], []⟩

/-- `src/sparse_set/window.rs:332-334` `get`. -/
def get (a : Acc) (i : Nat) : Res EId := vecGetU a.slice i

/-- `src/sparse_set/window.rs:338-343` `follow_up_len`. -/
def followLen (a : Acc) : Nat := (a.rest.map (·.2)).sum

/-- `src/sparse_set/window.rs:347-355` `next_slice`: pops the last follow-up. -/
def nextSlice (a : Acc) : Option (Nat × Acc) :=
  match a.rest.getLast? with
  | none => none
  | some (s, n) => some (n, ⟨s, a.rest.dropLast⟩)

/-- The `position` of `src/sparse_set/window.rs:362-372`: the first follow-up at which the accumulated
length reaches `count`, and what remains of `count` before it. -/
def splitPoint (count : Nat) : List (List EId × Nat) → Nat → Nat → Option (Nat × Nat)
  | [], _, _ => none
  | (_, n) :: l, i, total =>
    if total + n ≥ count then some (i, count - total) else splitPoint count l (i + 1) (total + n)

/-- `src/sparse_set/window.rs:359-393` `split_at`. `follow_up2[0]` exists when `remaining != 0`. The pointer of
the right half is the one of the left. -/
def splitAt (a : Acc) (count : Nat) : Acc × Acc :=
  match splitPoint count a.rest 0 0 with
  | none => (⟨a.slice, []⟩, ⟨a.slice, a.rest⟩)
  | some (p, remaining) =>
    match remaining, a.rest.drop p with
    | 0, right => (⟨a.slice, a.rest.take p⟩, ⟨a.slice, right⟩)
    | _ + 1, [] => (⟨a.slice, a.rest.take p⟩, ⟨a.slice, []⟩)
    | k + 1, (s, n) :: right =>
      (⟨a.slice, a.rest.take p ++ [(s, k + 1)]⟩, ⟨a.slice, (s, n - (k + 1)) :: right⟩)

end Acc

/-! ## Building -/

/-- What implements `IntoShiperator`. -/
inductive Qry (V : Type) where
  /-- `&View`, `&ViewMut`, `&mut ViewMut` -/
  | view (w : Win V)
  /-- `&[EntityId]` -/
  | ids (l : List EId)
  /-- `view.as_optional()` -/
  | opt (w : Win V)
  /-- `!&view`; `!&mut view` when `excl` -/
  | absent (w : Win V) (excl : Bool)
  /-- `view.inserted()` and the others; `!view.inserted()` when `neg` -/
  | flag (k : Flag) (neg : Bool) (w : Win V)
  /-- `a | b` -/
  | or (a b : Qry V)
  /-- tuples -/
  | tup (l : List (Qry V))

namespace Qry

mutual
/-- `can_captain`: `src/iter/into_shiperator.rs:129-131` and the others, `src/iter/into_shiperator/not.rs:28-30`,
`101-103`, `src/iter/into_shiperator/or.rs:34-36`, `src/iter/into_shiperator/tracking.rs:27-29`, tuples
`src/iter/into_shiperator.rs:439-443`. -/
def canCaptain : Qry V → Bool
  | .opt _ | .absent _ _ => false
  | .tup l => canCaptains l
  | _ => true
def canCaptains : List (Qry V) → Bool
  | [] => false
  | q :: l => q.canCaptain || canCaptains l
end

mutual
/-- `can_sailor`: `false` for `&[EntityId]` (`src/iter/into_shiperator.rs:215-217`), memberwise for tuples
(`446-450`), `true` for the others. -/
def canSailor : Qry V → Bool
  | .ids _ => false
  | .tup l => canSailors l
  | _ => true
def canSailors : List (Qry V) → Bool
  | [] => true
  | q :: l => q.canSailor && canSailors l
end

/-- The captain of a tuple: the only member that cannot be a sailor
(`src/iter/into_shiperator.rs:359-377`), else the first of the members that can be captain with the least
sail time below `usize::MAX` (`402-416`). -/
def pick (r : Rnd) (qs : List (Qry V)) (ships : List (Ship V)) : Option Nat :=
  match qs.findIdx? (fun q => !q.canSailor) with
  | some k => some k
  | none => go qs ships 0 none usizeMax
where
  go : List (Qry V) → List (Ship V) → Nat → Option Nat → Nat → Option Nat
    | q :: qs, s :: ships, i, best, least =>
      if q.canCaptain && decide (s.sailTime r < least) then go qs ships (i + 1) (some i) (s.sailTime r)
      else go qs ships (i + 1) best least
    | _, _, _, best, _ => best

/-- `unpick` all members but the captain; the list starts at position `i`. -/
def unpickBut (cap : Option Nat) : Nat → List (Ship V) → List (Ship V)
  | _, [] => []
  | i, s :: l => (if cap = some i then s else s.unpick) :: unpickBut cap (i + 1) l

/-- `src/iter/into_shiperator.rs:379-397`, `420-436`: `unpick` all members but the captain, and build the
`Mixed`. -/
def assemble (parts : List (Ship V × Nat × Acc)) (cap : Option Nat) : Ship V × Nat × Acc :=
  let ships := unpickBut cap 0 (parts.map (·.1))
  match cap.bind (parts[·]?), cap with
  | some p, some k => (.mixed ships (if p.1.isExact then some k else none), p.2.1, p.2.2)
  | _, _ => (.mixed ships none, 0, .dangling)

/-- `src/iter/into_shiperator.rs:323-436`: the checks, the sail times of all members (whose sums can
overflow), the choice of the captain, the result. -/
def captainOf (r : Rnd) (qs : List (Qry V)) (parts : List (Ship V × Nat × Acc)) :
    Res (Ship V × Nat × Acc) :=
  if !qs.any (·.canCaptain) then .error .panic
  else if qs.any (fun q => !q.canCaptain && !q.canSailor) then .error .panic
  else if (qs.filter (fun q => !q.canSailor)).length > 1 then .error .panic
  else if Ship.sailOvers r (parts.map (·.1)) then .error .panic
  else .ok (assemble parts (pick r qs (parts.map (·.1))))

mutual
/-- `into_shiperator`: `src/iter/into_shiperator.rs:117-126` and the others, `286-304` for `(T,)`, `323-436` for
tuples, `src/iter/into_shiperator/not.rs`, `src/iter/into_shiperator/tracking.rs`,
`src/iter/into_shiperator/or.rs:12-31` (which drops the follow-ups of its members). Returns the shiperator, its
length and the ids. `storage_ids` is never read. -/
def intoShip (r : Rnd) : Qry V → Res (Ship V × Nat × Acc)
  | .view w => .ok (.view w, w.set.dense.length, ⟨w.set.dense, []⟩)
  | .ids l => .ok (.ids l, l.length, ⟨l, []⟩)
  | .opt w => .ok (.opt w, w.set.dense.length, ⟨w.set.dense, []⟩)
  | .absent w excl => .ok (.absent w excl, w.set.dense.length, ⟨w.set.dense, []⟩)
  | .flag k neg w => .ok (.flag k neg w, w.set.dense.length, ⟨w.set.dense, []⟩)
  | .or a b =>
    match a.intoShip r with
    | .error f => .error f
    | .ok (sa, la, aa) =>
      match b.intoShip r with
      | .error f => .error f
      | .ok (sb, lb, ab) => .ok (.or sa sb true false, la, ⟨aa.slice, [(ab.slice, lb)]⟩)
  | .tup l =>
    match intoShips r l with
    | .error f => .error f
    | .ok [p] => .ok p
    | .ok parts => captainOf r l parts
def intoShips (r : Rnd) : List (Qry V) → Res (List (Ship V × Nat × Acc))
  | [] => .ok []
  | q :: l =>
    match q.intoShip r with
    | .error f => .error f
    | .ok p => (intoShips r l).map (p :: ·)
end

end Qry

/-! ## The iterator -/

/-- `src/iter/mod.rs:33-39` `Shiperator`. -/
structure It (V : Type) where
  ship : Ship V
  acc : Acc
  exact : Bool
  start : Nat
  stop : Nat

/-- `src/iter/into_shiperator.rs:78-91` `iter`. -/
def iter (r : Rnd) (q : Qry V) : Res (It V) :=
  match q.intoShip r with
  | .error f => .error f
  | .ok (ship, len, acc) => .ok ⟨ship, acc, ship.isExact, 0, len⟩

/-- `src/iter_component.rs:498-536`, `72-100`: `World::iter` with a tuple of `&T`, `&mut T` and `Mut<T>`; the windows
are those of `Win.ofOwned`. Tuples nested in tuples: `WQ.ship`. -/
def worldShip (ws : List (Win V)) : Ship V × Nat × Acc :=
  let parts := ws.map fun w => (Ship.view w, w.set.dense.length, (⟨w.set.dense, []⟩ : Acc))
  let rec pick : List (Win V) → Nat → Option Nat → Nat → Option Nat
    | w :: ws, i, best, least =>
      if w.set.dense.length < least then pick ws (i + 1) (some i) w.set.dense.length
      else pick ws (i + 1) best least
    | [], _, best, _ => best
  Qry.assemble parts (pick ws 0 none usizeMax)

/-- `src/iter_component.rs:49-71` `into_iter`, `src/iter_component/iter_ref.rs:33-51` `iter`. -/
def worldIter (views : List (Tracking.View V)) : It V :=
  match worldShip (views.map Win.ofOwned) with
  | (ship, len, acc) => ⟨ship, acc, ship.isExact, 0, len⟩

namespace It

/-- What a loop does at one position (`src/iter/mod.rs:60-68`, `139-147`). -/
def visit (it : It V) (i : Nat) : Res (Option (Out V)) :=
  if it.exact then (it.ship.captainData i).map some
  else
    match it.acc.get i with
    | .error f => .error f
    | .ok e =>
      match it.ship.indicesOf e i with
      | .error f => .error f
      | .ok none => .ok none
      | .ok (some ix) => (it.ship.sailorData ix).map some

/-- `if self.start == self.end { next_slice or return }` (`src/iter/mod.rs:46-55`, `127-136`). -/
def refill (it : It V) : Option (It V) :=
  if it.start = it.stop then
    match it.acc.nextSlice with
    | none => none
    | some (n, acc) => some { it with acc := acc, start := 0, stop := n, ship := it.ship.nextSlice }
  else some it

/-- Enough for the loops of `next` and `next_back`. -/
def fuel (it : It V) : Nat := (it.stop - it.start) + it.acc.slice.length + (it.acc.rest.map (fun x => x.2 + x.1.length + 1)).sum + 1

/-- `src/iter/mod.rs:44-70` `next`. -/
def nextF : Nat → It V → Res (Option (Out V) × It V)
  | 0, _ => .error .diverge
  | n + 1, it =>
    match it.refill with
    | none => .ok (none, it)
    | some it =>
      match it.visit it.start with
      | .error f => .error f
      | .ok (some o) => .ok (some o, { it with start := it.start + 1 })
      | .ok none => nextF n { it with start := it.start + 1 }

def next (it : It V) : Res (Option (Out V) × It V) := nextF it.fuel it

/-- `src/iter/mod.rs:125-150` `next_back`; `self.end -= 1` is checked. -/
def nextBackF : Nat → It V → Res (Option (Out V) × It V)
  | 0, _ => .error .diverge
  | n + 1, it =>
    match it.refill with
    | none => .ok (none, it)
    | some it =>
      if it.stop = 0 then .error .panic
      else
        match it.visit (it.stop - 1) with
        | .error f => .error f
        | .ok (some o) => .ok (some o, { it with stop := it.stop - 1 })
        | .ok none => nextBackF n { it with stop := it.stop - 1 }

def nextBack (it : It V) : Res (Option (Out V) × It V) := nextBackF it.fuel it

/-- `src/iter/mod.rs:73-81` `size_hint`; `end - start` is checked. -/
def sizeHint (it : It V) : Res (Nat × Nat) :=
  if it.stop < it.start then .error .panic
  else
    let max := it.stop - it.start + it.acc.followLen
    .ok (if it.exact then max else 0, max)

/-- The inner `while` of the folds over the positions `ps`: the items given to the closure, in order. -/
def visits (it : It V) : List Nat → Res (List (Out V))
  | [] => .ok []
  | i :: ps =>
    match it.visit i with
    | .error f => .error f
    | .ok o => (it.visits ps).map (o.toList ++ ·)

/-- The positions between `start` and `end`. -/
def span (it : It V) : List Nat := (List.range (it.stop - it.start)).map (it.start + ·)

/-- The outer loop of the folds once `start == end`; `rest` lists the follow-ups in the order they are
popped, `turn` is how the positions of a slice are walked. -/
def foldRest (turn : List Nat → List Nat) (it : It V) : List (List EId × Nat) → Res (List (Out V))
  | [] => .ok []
  | (s, n) :: rest =>
    let it := { it with acc := ⟨s, rest.reverse⟩, start := 0, stop := n, ship := it.ship.nextSlice }
    match it.visits (turn (List.range n)) with
    | .error f => .error f
    | .ok os => (foldRest turn it rest).map (os ++ ·)

/-- `src/iter/mod.rs:84-119` `fold`: the items given to the closure, in order. With `start > end` the outer loop
never ends. -/
def fold (it : It V) : Res (List (Out V)) :=
  if it.stop < it.start then .error .diverge
  else
    match it.visits it.span with
    | .error f => .error f
    | .ok os => (it.foldRest id it.acc.rest.reverse).map (os ++ ·)

/-- `src/iter/mod.rs:153-188` `rfold`. -/
def rfold (it : It V) : Res (List (Out V)) :=
  if it.stop < it.start then .error .diverge
  else
    match it.visits it.span.reverse with
    | .error f => .error f
    | .ok os => (it.foldRest List.reverse it.acc.rest.reverse).map (os ++ ·)

/-- `src/iter/parallel.rs:11-40` `split`. -/
def split (it : It V) : It V × Option (It V) :=
  let followLen := it.acc.followLen
  let remaining := it.stop - it.start
  if remaining + followLen ≤ 1 then (it, none)
  else
    let newEnd := it.start + remaining / 2
    let (l, r) := it.acc.splitAt (followLen / 2)
    ({ it with acc := l, stop := newEnd }, some { it with acc := r, start := newEnd })

/-! ## With ids -/

/-- `src/iter/with_id.rs:26-34` `WithId::next`. -/
def nextId (it : It V) : Res (Option (EId × Out V) × It V) :=
  match it.next with
  | .error f => .error f
  | .ok (none, it) => .ok (none, it)
  | .ok (some o, it) =>
    match it.acc.get (it.start - 1) with
    | .error f => .error f
    | .ok e => .ok (some (e, o), it)

/-- `src/iter/with_id.rs:93-101` `WithId::next_back`. -/
def nextBackId (it : It V) : Res (Option (EId × Out V) × It V) :=
  match it.nextBack with
  | .error f => .error f
  | .ok (none, it) => .ok (none, it)
  | .ok (some o, it) =>
    match it.acc.get (it.stop + 1) with
    | .error f => .error f
    | .ok e => .ok (some (e, o), it)

/-- The inner `while` of the folds of `WithId`. -/
def visitsId (it : It V) : List Nat → Res (List (EId × Out V))
  | [] => .ok []
  | i :: ps =>
    match it.acc.get i with
    | .error f => .error f
    | .ok e =>
      match it.visit i with
      | .error f => .error f
      | .ok o => (it.visitsId ps).map ((o.map (e, ·)).toList ++ ·)

/-- The outer loop; `advance` tells whether `shiperator.next_slice` is called. -/
def foldRestId (advance : Bool) (turn : List Nat → List Nat) (it : It V) :
    List (List EId × Nat) → Res (List (EId × Out V))
  | [] => .ok []
  | (s, n) :: rest =>
    let it := { it with
      acc := ⟨s, rest.reverse⟩, start := 0, stop := n
      ship := if advance then it.ship.nextSlice else it.ship }
    match it.visitsId (turn (List.range n)) with
    | .error f => .error f
    | .ok os => (foldRestId advance turn it rest).map (os ++ ·)

/-- `src/iter/with_id.rs:40-79` `WithId::fold`: does not call `shiperator.next_slice`. -/
def foldId (it : It V) : Res (List (EId × Out V)) :=
  if it.stop < it.start then .error .diverge
  else
    match it.visitsId it.span with
    | .error f => .error f
    | .ok os => (it.foldRestId false id it.acc.rest.reverse).map (os ++ ·)

/-- `src/iter/with_id.rs:103-144` `WithId::rfold`: does call it. -/
def rfoldId (it : It V) : Res (List (EId × Out V)) :=
  if it.stop < it.start then .error .diverge
  else
    match it.visitsId it.span.reverse with
    | .error f => .error f
    | .ok os => (it.foldRestId true List.reverse it.acc.rest.reverse).map (os ++ ·)

end It
end Verif.Iter

import Verif.Spec.Storage
import Verif.Model.Tracking

/-!
# What a user may rely on about tracking

First part: which calls on a storage give an entity its component, and which write to it. Nothing here
mentions the vectors of timestamps.

Second part: programs as sequences of acts. A *session* is one use of a view: a system run by a
workload, or a view borrowed outside of workloads. `start p b` begins session `p`; `b` is the system when
it is run by a workload. Calls and looks made through the view of a session carry its name. Sessions may
be interleaved in any way: that two sessions cannot hold conflicting views at the same time (C37) is not
used, except where a theorem asks for `InOrder`.
-/
namespace Verif.TrkSpec
open StoSpec Tracking
variable {T : Type}

/-! ## Births and writes -/

/-- The timestamp of the call, if it gave `e` a component that it did not have. -/
def births (e : EId) : Event T → Option Nat
  | .inserted e' _ t .inserted => if e' = e then some t else none
  | .bulk start stamp vs =>
    if e.gen = 0 ∧ start ≤ e.idx ∧ e.idx < start + vs.length then some stamp else none
  | _ => none

/-- The timestamp of the call, if it wrote the component of `e` through a mutable access or replaced
it. -/
def writes (e : EId) : Event T → Option Nat
  | .inserted e' _ t (.componentOverride _) => if e' = e then some t else none
  | .wrote ws t => if e ∈ ws.map (·.1) then some t else none
  | .retained t calls => if calls.any (fun c => decide (c.id = e) && c.wrote.isSome) then some t else none
  | _ => none

/-- When `e` last got a component. -/
def bornAt (h : List (Event T)) (e : EId) : Option Nat := (h.filterMap (births e)).getLast?

/-- When the component of `e` was last written, counting from when `e` last got a component. -/
def writtenAt (h : List (Event T)) (e : EId) : Option Nat :=
  h.foldl (fun acc ev => if (births e ev).isSome then none else (writes e ev).or acc) none

/-- The timestamp of the call, if it gave `e` a component, in a free place or in the one of an older entity of the same index. -/
def gives (e : EId) : Event T → Option Nat
  | .inserted e' _ t .inserted | .inserted e' _ t .otherComponentOverride => if e' = e then some t else none
  | .bulk start stamp vs =>
    if e.gen = 0 ∧ start ≤ e.idx ∧ e.idx < start + vs.length then some stamp else none
  | _ => none

/-- When `e` last got a component, also in the place of an older entity. -/
def givenAt (h : List (Event T)) (e : EId) : Option Nat := (h.filterMap (gives e)).getLast?

/-- A timestamp in the window `(last, current]`. -/
def InWindow (t last current : Nat) : Prop := last < t ∧ t ≤ current

/-! ## Programs -/

/-- The timestamp given to a call. -/
def stamp : Event T → Option Nat
  | .inserted _ _ t _ | .removed _ t _ | .deleted _ t _ | .wrote _ t | .retained t _ | .cleared t _
  | .drained t _ | .bulk _ t _ => some t
  | _ => none

/-- The calls by which tracking information is cleared or switched, treated apart. -/
def isControl : Event T → Bool
  | .trackInsertion | .trackModification | .trackDeletion | .trackRemoval | .clearInserted _
  | .clearModified _ | .clearDeleted | .clearRemoved | .clearBoth | .clearOlder _
  | .clearDeletedOlder _ | .clearRemovedOlder _ => true
  | _ => false

inductive Act (T : Type) where
  /-- a session begins -/
  | start (p : Nat) (sys : Option Nat)
  /-- a call on the storage made through the view of session `p` -/
  | call (p : Nat) (ev : Event T)
  /-- `is_inserted(e)` and `is_modified(e)` asked to the view of session `p`, with the answers -/
  | look (p : Nat) (e : EId) (ins mod : Bool)
  /-- `removed()` and `deleted()` of the view of session `p`, with the items -/
  | list (p : Nat) (removed : List EId) (deleted : List (EId × T))
  /-- `clear_all_inserted()` / `clear_all_modified()` on the view of `p`, which consumes the view -/
  | clearIns (p : Nat)
  | clearMod (p : Nat)
  /-- `World::clear_all_inserted()` / `clear_all_modified()` -/
  | worldClearIns
  | worldClearMod

/-- A world with one component storage in view. A session maps to its borrow, `none` when it has not
begun or its view was consumed. -/
structure World (T : Type) where
  clock : Clock
  session : Nat → Option Session
  used : List Nat
  set : SparseSet T

def World.init (ins mod del rem : Bool) : World T :=
  ⟨Clock.new, fun _ => none, [], SparseSet.new ins mod del rem⟩

/-- The view of a session. -/
def World.view (w : World T) (s : Session) : View T := View.new w.set s.lastRun s.current

def upd {α : Type} (f : Nat → α) (p : Nat) (x : α) : Nat → α := fun q => if q = p then x else f q

/-- One act of the model. -/
inductive Does : World T → Act T → World T → Prop where
  | start {w p sys} : p ∉ w.used →
      Does w (.start p sys)
        { w with
          clock := (w.clock.start sys).2
          session := upd w.session p (some (w.clock.start sys).1)
          used := p :: w.used }
  | call {w p ev s set'} : w.session p = some s → Step w.set ev set' → isControl ev = false →
      (∀ t, stamp ev = some t → t = s.current) →
      Does w (.call p ev) { w with set := set' }
  | look {w p e s ins mod} : w.session p = some s → Valid e →
      (w.view s).isInserted e = .ok ins → (w.view s).isModified e = .ok mod →
      Does w (.look p e ins mod) w
  | list {w p s} : w.session p = some s →
      Does w (.list p (w.view s).removed (w.view s).deleted) w
  | clearIns {w p s} : w.session p = some s →
      Does w (.clearIns p)
        { w with session := upd w.session p none, set := w.set.clearAllInserted s.current }
  | clearMod {w p s} : w.session p = some s →
      Does w (.clearMod p)
        { w with session := upd w.session p none, set := w.set.clearAllModified s.current }
  | worldClearIns {w} : Does w .worldClearIns { w with set := worldClearInserted w.clock w.set }
  | worldClearMod {w} : Does w .worldClearMod { w with set := worldClearModified w.clock w.set }

/-- `Prog w0 tr w`: the acts `tr`, oldest first, lead from `w0` to `w`. -/
inductive Prog (w0 : World T) : List (Act T) → World T → Prop where
  | nil : Prog w0 [] w0
  | snoc {tr w a w'} : Prog w0 tr w → Does w a w' → Prog w0 (tr ++ [a]) w'

/-! ## What the acts say, without timestamps -/

/-- The sessions in the order they began, with their systems. -/
def starts (tr : List (Act T)) : List (Nat × Option Nat) :=
  tr.filterMap fun | .start p sys => some (p, sys) | _ => none

/-- The run of system `b` that has to report what session `p` does: the first one among the sessions
that began with `p` or later. -/
def reporter (tr : List (Act T)) (b p : Nat) : Option Nat :=
  (((starts tr).dropWhile (fun s => s.1 != p)).find? (fun s => s.2 == some b)).map (·.1)

/-- The session that gave `e` its component. -/
def bornBy (tr : List (Act T)) (e : EId) : Option Nat :=
  (tr.filterMap fun
    | .call p ev => if (births e ev).isSome then some p else none
    | _ => none).getLast?

/-- The session that last wrote the component of `e`, counting from when `e` got it. -/
def writtenBy (tr : List (Act T)) (e : EId) : Option Nat :=
  tr.foldl (fun acc => fun
    | .call p ev => if (births e ev).isSome then none else if (writes e ev).isSome then some p else acc
    | _ => acc) none

/-- The calls made on the storage. -/
def events (tr : List (Act T)) : List (Event T) :=
  tr.filterMap fun | .call _ ev => some ev | _ => none

/-- What was removed, in order, with the session that did it. -/
def removals (tr : List (Act T)) : List (Nat × EId) :=
  tr.flatMap fun
    | .call p (.removed e _ (some _)) => [(p, e)]
    | .call p (.drained _ rows) => rows.map fun x => (p, x.1)
    | _ => []

/-- What was deleted, in order, with the session that did it and the component. -/
def deletions (tr : List (Act T)) : List (Nat × EId × T) :=
  tr.flatMap fun
    | .call p (.deleted e _ (some v)) => [(p, e, v)]
    | .call p (.retained _ calls) => (rejected calls).map fun c => (p, c.id, c.left)
    | .call p (.cleared _ rows) => rows.map fun x => (p, x.1, x.2)
    | _ => []

/-- No act of `tr` clears the insertions (`ins`) or the modifications. -/
def NoClear (ins : Bool) (tr : List (Act T)) : Prop :=
  ∀ x ∈ tr, match x with
    | .clearIns _ | .worldClearIns => ins = false
    | .clearMod _ | .worldClearMod => ins = true
    | _ => True

/-- Session `p` began before session `q`. -/
def Before (tr : List (Act T)) (p q : Nat) : Prop :=
  ∃ (i j : Nat) (a b : Option Nat), (starts tr)[i]? = some (p, a) ∧ (starts tr)[j]? = some (q, b) ∧ i < j

/-- The session of an act that reads the storage. -/
def reads : Act T → Option Nat
  | .look p .. | .list p .. => some p
  | _ => none

/-- The session of an act that changes the storage. -/
def changes : Act T → Option Nat
  | .call p _ | .clearIns p | .clearMod p => some p
  | _ => none

/-- Conflicting acts happen in the order in which their sessions began. So it is in every program in
which a session that has begun gets its view before the next one begins; it is not guaranteed when
threads race, because the timestamp is taken before the storage is borrowed. -/
def InOrder (tr : List (Act T)) : Prop :=
  ∀ (tr1 tr2 tr3 : List (Act T)) (x y : Act T) (p q : Nat), tr = tr1 ++ x :: tr2 ++ y :: tr3 →
    (changes x = some p ∧ (changes y = some q ∨ reads y = some q)) ∨ (reads x = some p ∧ changes y = some q) →
    ¬ Before tr q p

end Verif.TrkSpec

import Verif.Spec.Tracking

/-!
# What a user may rely on about the tracking of uniques

Programs as in `Verif/Spec/Tracking.lean`, on one unique storage. Reading through a view is an act of its
own, to say that it changes nothing.
-/
namespace Verif.UTrk
open Tracking
open TrkSpec (InWindow upd)
variable {V : Type}

inductive Act (V : Type) where
  /-- a session begins; `some b`: a run of system `b` by a workload -/
  | start (p : Nat) (sys : Option Nat)
  /-- `add_unique(x)`: adds or replaces -/
  | add (x : V)
  /-- `remove_unique()`, with the value returned -/
  | remove (x : V)
  /-- shared access through the view of `p`, with the value read -/
  | read (p : Nat) (x : V)
  /-- mutable access through the view of `p` -/
  | write (p : Nat) (x : V)
  /-- `is_inserted()` and `is_modified()` of the view of `p` -/
  | look (p : Nat) (ins mod : Bool)
  /-- `clear_inserted()` / `clear_modified()` on the view of `p`, which consumes it -/
  | clearIns (p : Nat)
  | clearMod (p : Nat)
  /-- `World::clear_all_inserted()` / `clear_all_modified()` -/
  | worldClearIns
  | worldClearMod

structure World (V : Type) where
  clock : Clock
  session : Nat → Option Session
  used : List Nat
  unique : Option (UniqueStorage V)

def World.init : World V := ⟨Clock.new, fun _ => none, [], none⟩

/-- The view of session `s` on storage `u`. -/
def viewOf (u : UniqueStorage V) (s : Session) : UniqueView V := UniqueView.new u s.lastRun s.current

/-- One act of the model. `add_unique` uses the value of the counter without consuming it
(`src/all_storages/mod.rs:110-120`). -/
inductive Does : World V → Act V → World V → Prop where
  | start {w p sys} : p ∉ w.used →
      Does w (.start p sys)
        { w with
          clock := (w.clock.start sys).2
          session := upd w.session p (some (w.clock.start sys).1)
          used := p :: w.used }
  | add {w x} : Does w (.add x) { w with unique := some (UniqueStorage.new x w.clock.timestamp) }
  | remove {w u} : w.unique = some u → Does w (.remove u.value) { w with unique := none }
  | read {w p s u} : w.session p = some s → w.unique = some u →
      Does w (.read p (viewOf u s).read) w
  | write {w p s u x} : w.session p = some s → w.unique = some u →
      Does w (.write p x) { w with unique := some ((viewOf u s).write x).unique }
  | look {w p s u} : w.session p = some s → w.unique = some u →
      Does w (.look p (viewOf u s).isInserted (viewOf u s).isModified) w
  | clearIns {w p s u} : w.session p = some s → w.unique = some u →
      Does w (.clearIns p)
        { w with session := upd w.session p none, unique := some (viewOf u s).clearInserted }
  | clearMod {w p s u} : w.session p = some s → w.unique = some u →
      Does w (.clearMod p)
        { w with session := upd w.session p none, unique := some (viewOf u s).clearModified }
  | worldClearIns {w} : Does w .worldClearIns
      { w with unique := w.unique.map (fun u => u.clearAllInserted w.clock.timestamp) }
  | worldClearMod {w} : Does w .worldClearMod
      { w with unique := w.unique.map (fun u => u.clearAllModified w.clock.timestamp) }

inductive Prog (w0 : World V) : List (Act V) → World V → Prop where
  | nil : Prog w0 [] w0
  | snoc {tr w a w'} : Prog w0 tr w → Does w a w' → Prog w0 (tr ++ [a]) w'

/-! ## What the acts say -/

/-- The sessions in the order they began, with their systems. -/
def starts (tr : List (Act V)) : List (Nat × Option Nat) :=
  tr.filterMap fun | .start p sys => some (p, sys) | _ => none

/-- The run of system `b` that has to report what session `p` does. -/
def reporter (tr : List (Act V)) (b p : Nat) : Option Nat :=
  (((starts tr).dropWhile (fun s => s.1 != p)).find? (fun s => s.2 == some b)).map (·.1)

/-- The value of the unique. -/
def value (tr : List (Act V)) : Option V :=
  tr.foldl (fun acc => fun
    | .add x => some x
    | .remove _ => none
    | .write _ x => some x
    | _ => acc) none

/-- What came after the unique was last added: the acts in which it is the current one. -/
def since (tr : List (Act V)) : Option (List (Act V)) :=
  tr.foldl (fun acc => fun
    | .add _ => some []
    | .remove _ => none
    | a => acc.map (· ++ [a])) none

/-- The session that last wrote. -/
def writtenBy (tr : List (Act V)) : Option Nat :=
  (tr.filterMap fun | .write p _ => some p | _ => none).getLast?

/-- The run of system `b` that has to report an addition followed by the acts `tr`: the first that
began afterwards. -/
def firstRun (tr : List (Act V)) (b : Nat) : Option Nat :=
  ((starts tr).find? (fun s => s.2 == some b)).map (·.1)

/-- The sessions whose view last cleared the insertion / the modification. -/
def insClearedBy (tr : List (Act V)) : Option Nat :=
  (tr.filterMap fun | .clearIns p => some p | _ => none).getLast?
def modClearedBy (tr : List (Act V)) : Option Nat :=
  (tr.filterMap fun | .clearMod p => some p | _ => none).getLast?

/-- Session `p` began before session `q`. -/
def Before (tr : List (Act V)) (p q : Nat) : Prop :=
  ∃ x y z, (starts tr).map (·.1) = x ++ p :: y ++ q :: z

def NoWorldClear (tr : List (Act V)) : Prop := .worldClearIns ∉ tr ∧ .worldClearMod ∉ tr

end Verif.UTrk

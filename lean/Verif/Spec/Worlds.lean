import Verif.Model.Worlds
import Verif.Spec.Tracking

/-!
# Programs over several worlds

Any number of worlds; in each of them sessions of systems and other borrows as in `Spec/Tracking.lean`, interleaved with
those of the other worlds in any way; and exchanges of the contents of two worlds.
-/
namespace Verif.Worlds
open StoSpec TrkSpec Tracking
variable {T : Type}

/-- Something a program does. -/
inductive Deed (T : Type) where
  /-- a new world, whose storage tracks what the flags say -/
  | new (ins mod del rem : Bool)
  /-- `a` happens in world `i`. A session begins through the world or through its `AllStorages`. -/
  | act (i : Nat) (viaWorld : Bool) (a : Act T)
  /-- the contents of worlds `i` and `j` are exchanged -/
  | exchange (i j : Nat)

/-- A program in the middle of its execution: `session i` are the views that exist in world `i`, `used i` the names of
the sessions that have begun there. -/
structure State (T : Type) where
  prog : Program T
  session : Nat → Nat → Option Session
  used : Nat → List Nat

def State.init : State T := ⟨⟨[], []⟩, fun _ _ => none, fun _ => []⟩

/-- The storage of world `i` seen by a session. -/
def World.view (w : World T) (s : Session) : View T := View.new w.all.set s.lastRun s.current

inductive Does : State T → Deed T → State T → Prop where
  | new {m ins mod del rem} :
      Does m (.new ins mod del rem) { m with prog := m.prog.newWorld (SparseSet.new ins mod del rem) }
  /-- Systems run through their world. -/
  | start {m i w p via sys} : m.prog.worlds[i]? = some w → p ∉ m.used i → (via = true ∨ sys = none) →
      Does m (.act i via (.start p sys))
        { prog := (m.prog.start i w via sys).2
          session := upd m.session i (upd (m.session i) p (some (m.prog.start i w via sys).1))
          used := upd m.used i (p :: m.used i) }
  | call {m i w p via ev s set'} : m.prog.worlds[i]? = some w → m.session i p = some s → Step w.all.set ev set' →
      isControl ev = false → (∀ t, stamp ev = some t → t = s.current) →
      Does m (.act i via (.call p ev)) { m with prog := m.prog.store i w set' }
  | look {m i w p via e s ins mod} : m.prog.worlds[i]? = some w → m.session i p = some s → Valid e →
      (w.view s).isInserted e = .ok ins → (w.view s).isModified e = .ok mod →
      Does m (.act i via (.look p e ins mod)) m
  | list {m i w p via s} : m.prog.worlds[i]? = some w → m.session i p = some s →
      Does m (.act i via (.list p (w.view s).removed (w.view s).deleted)) m
  | clearIns {m i w p via s} : m.prog.worlds[i]? = some w → m.session i p = some s →
      Does m (.act i via (.clearIns p))
        { m with prog := m.prog.store i w (w.all.set.clearAllInserted s.current)
                 session := upd m.session i (upd (m.session i) p none) }
  | clearMod {m i w p via s} : m.prog.worlds[i]? = some w → m.session i p = some s →
      Does m (.act i via (.clearMod p))
        { m with prog := m.prog.store i w (w.all.set.clearAllModified s.current)
                 session := upd m.session i (upd (m.session i) p none) }
  | worldClearIns {m i w via} : m.prog.worlds[i]? = some w →
      Does m (.act i via .worldClearIns) { m with prog := m.prog.clearInserted i w }
  | worldClearMod {m i w via} : m.prog.worlds[i]? = some w →
      Does m (.act i via .worldClearMod) { m with prog := m.prog.clearModified i w }
  /-- Exclusive access to both `AllStorages`: there is no view of either world any more. -/
  | exchange {m i j a b} : m.prog.worlds[i]? = some a → m.prog.worlds[j]? = some b → i ≠ j →
      Does m (.exchange i j)
        { m with prog := m.prog.exchange i j a b
                 session := upd (upd m.session i fun _ => none) j fun _ => none }

/-- `Runs ds m`: the deeds `ds`, oldest first, lead to `m`. -/
inductive Runs : List (Deed T) → State T → Prop where
  | nil : Runs [] State.init
  | snoc {ds m d m'} : Runs ds m → Does m d m' → Runs (ds ++ [d]) m'

/-- What happens in world `i`, in order. -/
def actsOf (i : Nat) (ds : List (Deed T)) : List (Act T) :=
  ds.filterMap fun
    | .act j _ a => if j = i then some a else none
    | _ => none

/-- No exchange. -/
def Apart (ds : List (Deed T)) : Prop := ∀ i j, Deed.exchange i j ∉ ds

/-- The flags the `i`-th world was made with. -/
def flagsOf (i : Nat) (ds : List (Deed T)) : Option (Bool × Bool × Bool × Bool) :=
  (ds.filterMap fun
    | .new a b c d => some (a, b, c, d)
    | _ => none)[i]?

end Verif.Worlds

import Verif.Model.StorageMap

/-!
# Specification of the map of storages
-/
namespace Verif.StorageMap
open Verif.Threads (Made)

/-- `add_unique` is not called while a guard on the unique it replaces exists. (Otherwise the guard dangles: `C63_fails`.) -/
def Polite (s : St) : Ev → Prop
  | .addUnique t _ => ∀ a, look s.map (uniqueId t) = some a → ∀ g ∈ s.guards, g.box ≠ a
  | _ => True

/-- The states threads can reach, from a world made by thread `main` with the standard lock or another one. -/
inductive Reach (std : Bool) (main : Nat) : List (Nat × Ev) → St → Prop where
  | init : Reach std main [] (St.init std main)
  | step {h s me ev s' o} : Reach std main h s → Polite s ev → s.step me ev = some (s', o) →
      Reach std main (h ++ [(me, ev)]) s'

/-- `s'` comes after `s`, by steps of any threads. -/
inductive Later (s : St) : St → Prop where
  | refl : Later s s
  | step {s1 s2 me ev o} : Later s s1 → s1.step me ev = some (s2, o) → Later s s2

/-- Is there a storage under this id? -/
def Present (s : St) (id : Id) : Prop := ∃ a, look s.map id = some a

/-- `g` is a guard on the storage that is under `id` now. -/
def On (s : St) (id : Id) (g : Guard) : Prop := g ∈ s.guards ∧ look s.map id = some g.box

/-- The type of the storage under an id. -/
def typeAt (s : St) (id : Id) : Option Ty := (look s.map id).bind fun a => (s.heap a).map (·.ty)

/-- Which threads the storage under an id is for: the thread its values are bound to, if any, and whether they can be shared. -/
def boundTo (s : St) (id : Id) : Option (Option Nat × Bool) := (look s.map id).bind fun a => (s.heap a).map fun b => (b.send, b.isSync)

/-- What it should be for a storage made as `m`: the `NonSend` and `NonSendSync` ones are bound to the thread of the world; the
`NonSync` and `NonSendSync` ones cannot be shared. -/
def boundAs (main : Nat) : Made → Option Nat × Bool
  | .new => (none, true)
  | .nonSend => (some main, true)
  | .nonSync => (none, false)
  | .nonSendSync => (some main, false)

/-- May thread `me` borrow the storage under `id`, as far as threads are concerned? A storage whose values cannot be sent is
borrowed exclusively by the thread of the world only; one whose values cannot be sent nor shared, by that thread only. -/
def ThreadFits (s : St) (id : Id) (excl : Bool) (me : Nat) : Prop :=
  ∀ a b, look s.map id = some a → s.heap a = some b → b.send ≠ none → (excl = true ∨ b.isSync = false) → me = s.main

/-- Do the guards that exist leave room for another one? An exclusive guard needs to be alone; so does a shared guard on a storage
whose values can be sent but not shared; any other shared guard only needs that there is no exclusive one. -/
def Room (s : St) (id : Id) (excl : Bool) : Prop :=
  ∀ a b, look s.map id = some a → s.heap a = some b →
    if excl = true ∨ (b.isSync = false ∧ b.send = none) then ∀ g ∈ s.guards, g.box ≠ a
    else ∀ g ∈ s.guards, g.box = a → g.excl = false

/-- What a call asks for has the type that `τ` gives to the id. -/
def Typed (τ : Id → Ty) : Ev → Prop
  | .find id (some t) _ => t = τ id
  | .orInsert r => r.ty = τ r.id
  | .insert _ ok => ok = true
  | .addUnique t quiet => τ (uniqueId t) = ⟨.new, .unique t⟩ ∧ quiet = true
  | .addUniqueLocal m t => τ (uniqueId t) = ⟨m, .unique t⟩
  | _ => True

/-- A history in which every call respects `τ`, no initialiser panics and no destructor panics. -/
inductive TypedReach (τ : Id → Ty) (std : Bool) (main : Nat) : List (Nat × Ev) → St → Prop where
  | init : TypedReach τ std main [] (St.init std main)
  | step {h s me ev s' o} : TypedReach τ std main h s → Polite s ev → Typed τ ev → s.step me ev = some (s', o) →
      TypedReach τ std main (h ++ [(me, ev)]) s'

/-- The calls that take the storage under `id` out of the map. -/
def TakesOut (id : Id) : Ev → Prop
  | .addUnique t _ => id = uniqueId t
  | .removeUnique t => id = uniqueId t
  | _ => False

end Verif.StorageMap

import Verif.Model.SparseSet

/-!
# Handles to components: `Mut` and `RefMut`

Models `src/mut.rs` and the half of `src/advanced/get_component.rs` about `RefMut`: a place, the place of its timestamp of
modification when the storage tracks modifications, and the time a write is recorded under.
-/
namespace Verif.MutHandle

/-- `src/mut.rs:4-8` `Mut`, `src/advanced/get_component.rs:52-58` `RefMut`: `flag` is what the timestamp holds (`None` when there is none). -/
structure Handle (U : Type) where
  flag : Option Nat
  current : Nat
  data : U

namespace Handle
variable {U V : Type}

/-- `src/mut.rs:23-30`, `src/advanced/get_component.rs:76-83` `Deref`. -/
def deref (h : Handle U) : U := h.data

/-- `src/mut.rs:43-48`, `src/advanced/get_component.rs:85-90` `AsRef`. -/
def asRef (h : Handle U) : U := h.data

/-- `src/mut.rs:32-41`, `src/advanced/get_component.rs:92-101` `DerefMut`, after which the program changes the value with `f`. -/
def derefMut (f : U → U) (h : Handle U) : Handle U :=
  { h with flag := h.flag.map fun _ => h.current, data := f h.data }

/-- `src/mut.rs:50-59`, `src/advanced/get_component.rs:103-112` `AsMut`, after which the program changes the value with `f`. -/
def asMut (f : U → U) (h : Handle U) : Handle U :=
  { h with flag := h.flag.map fun _ => h.current, data := f h.data }

/-- `src/mut.rs:14-20`, `src/advanced/get_component.rs:65-73` `map`: the closure changes the value with `f` and returns the part `get`
reads. -/
def map (f : U → U) (get : U → V) (h : Handle U) : Handle V :=
  { flag := h.flag, current := h.current, data := get (f h.data) }

end Handle

/-- What a program does with a handle it was given, until it drops it. -/
inductive Use : Type → Type 1 where
  | drop {U : Type} : Use U
  /-- `*h`, `h.as_ref()`: what follows may depend on what it sees -/
  | deref {U : Type} (k : U → Use U) : Use U
  | asRef {U : Type} (k : U → Use U) : Use U
  /-- `*h = ..`, `&mut *h`, any method that takes `&mut self` -/
  | derefMut {U : Type} (f : U → U) (k : Use U) : Use U
  | asMut {U : Type} (f : U → U) (k : Use U) : Use U
  /-- `Mut::map`: `put` writes the part back into the whole it is a part of -/
  | map {U V : Type} (f : U → U) (get : U → V) (put : V → U → U) (k : Use V) : Use U

/-- The program run on a handle: what the timestamp and the place hold when it is dropped. -/
def Use.run : {U : Type} → Use U → Handle U → Option Nat × U
  | _, .drop, h => (h.flag, h.data)
  | _, .deref k, h => (k h.deref).run h
  | _, .asRef k, h => (k h.asRef).run h
  | _, .derefMut f k, h => k.run (h.derefMut f)
  | _, .asMut f k, h => k.run (h.asMut f)
  | _, .map f get put k, h =>
    let r := k.run (h.map f get)
    (r.1, put r.2 (f h.data))

end Verif.MutHandle

namespace Verif.SparseSet
variable {T : Type}
open MutHandle

/-- `(&mut view).get(e)` (`src/get.rs:77-106`) or `World::get::<&mut T>(e)` (`src/advanced/get_component.rs:241-280`), and the program
using the handle; `false` is `Err(MissingComponent)`. -/
def useMut (s : SparseSet T) (e : EId) (current : Nat) (u : Use T) : Res (Bool × SparseSet T) := do
  match ← s.indexOf e with
  | none => .ok (false, s)
  | some i => do
    let flag ← if s.trkMod then (vecGetU s.modificationData i).map some else .ok none
    let x ← vecGetU s.data i
    let r := u.run { flag := flag, current := current, data := x }
    let m ← match r.1 with
      | some t => vecSetU s.modificationData i t
      | none => .ok s.modificationData
    let data ← vecSetU s.data i r.2
    .ok (true, { s with data := data, modificationData := m })

end Verif.SparseSet

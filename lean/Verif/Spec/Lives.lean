import Verif.Spec.Storage
import Verif.Model.World

/-!
# How a storage may come to be

A storage lives by being made, called, or cloned from a living one. The calls are those of `StoSpec.Step`;
no insertion may take the slot of a component of another entity. `Lives s a` says so of a storage `s` and
also what the calls make of it: the table `a`.
-/
namespace Verif.StoSpec
variable {V : Type}

/-- What a clone of a storage holds: the same entities with cloned components, all stamped `now`, never
modified. Run-time tracking, callbacks and logs are not cloned. -/
def Sto.cloned (a : Sto V) (fl : Flags) (cl : Nat → V → V) (now k : Nat) : Sto V :=
  { (Sto.init (fl k).1 (fl k).2.1 (fl k).2.2.1 (fl k).2.2.2 : Sto V) with
    rows := fun j => (a.rows j).map fun r => ⟨r.gen, cl k r.val, now, 0⟩ }

/-- `s` lived without a takeover, and `a` is the table its life gives. -/
inductive Lives : SparseSet V → Sto V → Prop where
  | new (i m d r : Bool) : Lives (SparseSet.new i m d r) (Sto.init i m d r)
  | call {s a ev s'} : Lives s a → Step s ev s' →
      (∀ e v now, ev ≠ .inserted e v now .otherComponentOverride) → Lives s' (step a ev)
  | cloned {s a} (fl : Flags) (cl : Nat → V → V) (now k : Nat) : Lives s a →
      Lives (World.cloneSto fl cl now k s) (a.cloned fl cl now k)
  | cloneFn {s a} (b : Bool) : Lives s a → Lives { s with canClone := b } a

/-- A storage that was made and then called, never cloned. -/
theorem Lives.ofRun {s : SparseSet V} {i m d r h} (hr : Run (SparseSet.new i m d r) h s) (hn : NoTakeover h) :
    Lives s (after (Sto.init i m d r) h) := by
  induction hr with
  | nil => exact .new i m d r
  | @snoc h s ev s' hr hs ih =>
    have : after (Sto.init i m d r) (h ++ [ev]) = step (after (Sto.init i m d r) h) ev := by
      simp [after]
    rw [this]
    refine .call (ih fun e v now hm => hn e v now (List.mem_append_left _ hm)) hs ?_
    rintro e v now rfl
    exact hn e v now (List.mem_append_right _ List.mem_cons_self)

end Verif.StoSpec

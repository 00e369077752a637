import Verif.Model.StorageMap
import Verif.Model.Tracking

/-!
# Views of storages given by their id

Models `View::new_for_custom_storage` (`src/views/view.rs:165-195`) and `ViewMut::new_for_custom_storage`
(`src/views/view_mut.rs:157-186`). Both take a guard on `AllStorages` and keep it in the view.
-/
namespace Verif.StorageMap

/-- What the call ends with; `error::CustomStorageView` is `src/error.rs:731-736`. `wrongType` carries the type whose name the
error gives. -/
inductive ViewOut where
  | view (g : Guard)
  | missing
  | refused (id : Id) (e : Refusal)
  | wrongType (t : Ty)
  | panic
  deriving DecidableEq, Repr

/-- `View::<T>::new_for_custom_storage` (`excl` false) and `ViewMut::<T>::new_for_custom_storage` (`excl` true) by thread `me`; `t` is
the number of `T` and `all` the number of guards on `AllStorages`, of which one is given to the call. A view keeps it; otherwise it
is dropped, as is the guard on a storage of another type. -/
def newForCustom (s : St) (all : Nat) (me : Nat) (id : Id) (t : Nat) (excl : Bool) : St × Nat × ViewOut :=
  if s.poisoned then (s, all - 1, .panic)
  else
    match s.find me id none excl with
    | (s', .guard g) =>
      if g.ty = ⟨.new, .set t⟩ then (s', all, .view g)
      else (s'.unguard (s'.guards.length - 1) g, all - 1, .wrongType g.ty)
    | (s', .refused i e) => (s', all - 1, .refused i e)
    | (s', .missing) => (s', all - 1, .missing)
    | (s', _) => (s', all - 1, .panic)

end Verif.StorageMap

namespace Verif.Tracking
variable {T : Type}

/-- The timestamps of the views made by `new_for_custom_storage`: all are 0 (`src/views/view.rs:182-191`,
`src/views/view_mut.rs:171-180`). -/
def customView (s : SparseSet T) : View T := ⟨s, 0, 0, 0, 0⟩

/-- An insertion through such a `ViewMut`, by `add_component_unchecked` (`src/add_component.rs:37-43`) or `get_or_insert_with`
(`src/views/view_mut.rs:285-306`), which pass the `current` of the view. -/
def customInsert (s : SparseSet T) (e : EId) (x : T) : Res (InsertionResult T × SparseSet T) :=
  s.insert e x (customView s).current

/-- A write through such a `ViewMut`: `get` (`src/get.rs:78-106`) and `view[e]` (`src/views/view_mut.rs:641-664`). -/
def customWrite (s : SparseSet T) (e : EId) (x : T) : Res (Bool × SparseSet T) :=
  s.modify e (customView s).current fun _ => x

/-- A removal through such a `ViewMut`: `remove` (`src/remove.rs:45-48`). -/
def customRemove (s : SparseSet T) (e : EId) : Res (Option T × SparseSet T) :=
  s.dynRemove e (customView s).current

/-- A deletion through such a `ViewMut`: `delete` (`src/delete.rs:40-43`). -/
def customDelete (s : SparseSet T) (e : EId) : Res (Bool × SparseSet T) :=
  s.dynDelete e (customView s).current

end Verif.Tracking

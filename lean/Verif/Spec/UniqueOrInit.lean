import Verif.Model.UniqueOrInit

/-!
# What a user may rely on about lazily initialised uniques
-/
namespace Verif.UMem
variable {V : Type}

/-- The calls run on the specification of uniques: a value per type. -/
def specCall (s : St V) (op : Op V) : Res (Out V × St V) := .ok (s.step op)

/-- The specification running a program. -/
def specLazy (ops : List (LOp V)) : Res (List (LOut V) × Lazies × St V) :=
  driveAll specCall (fun _ => none) St.init ops

/-- The step does not add a unique of a type of which a view is held. -/
def LPolite (z : Lazies) (s : St V) : LOp V → Prop
  | .plain op => ∀ ty v, op = .add ty v → s.inUse ty = false
  | .set p _ => ∀ l, z p = some l → l.filled = false → l.callable = true → s.inUse l.ty = false
  | .ret p _ => ∀ l fr, z p = some l → l.frames = .init :: fr → s.inUse l.ty = false
  | _ => True

/-- A program that never does. -/
def LPoliteAll (z : Lazies) (s : St V) : List (LOp V) → Prop
  | [] => True
  | op :: ops => LPolite z s op ∧ ∀ o z' s', drive specCall z s op = .ok (o, z', s') → LPoliteAll z' s' ops

/-- `ops` is a polite program; the specification gives the outputs `os` and ends with the lazy views `z` and the uniques
and held views `s`. -/
def Reached (ops : List (LOp V)) (os : List (LOut V)) (z : Lazies) (s : St V) : Prop :=
  LPoliteAll (fun _ => none) St.init ops ∧ specLazy ops = .ok (os, z, s)

/-- After the program `ops`, the steps `more` show `outs`, in the model, and leave what `z'` and `s'` say. -/
def Then (ops : List (LOp V)) (os : List (LOut V)) (more : List (LOp V)) (outs : List (LOut V)) (z' : Lazies) (s' : St V) :
    Prop := Reached (ops ++ more) (os ++ outs) z' s' ∧ ∃ w, runLazy (ops ++ more) = .ok (os ++ outs, z', w)

/-- Can a view be had? -/
def St.free (s : St V) (ty : Nat) (excl : Bool) : Bool := !(if excl then s.inUse ty else s.locked ty)

/-- A unique gets a value. -/
def St.put (s : St V) (ty : Nat) (v : V) : St V := { s with val := UMem.set s.val ty (some v) }

/-- A view is taken. -/
def St.take (s : St V) (p ty : Nat) (excl : Bool) : St V := { s with held := s.held ++ [(p, ty, excl)] }

end Verif.UMem

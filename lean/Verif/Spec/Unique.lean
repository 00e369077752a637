import Verif.Model.Unique

/-!
# What a user may rely on about uniques

A unique is a value per type. Views are held under names chosen by the program; exclusive views of a type
exclude all other views of it. Nothing here has boxes or addresses.
-/
namespace Verif.UMem
variable {V : Type}

/-- Calls of a program. -/
inductive Op (V : Type) where
  | add (ty : Nat) (v : V)
  /-- the thread local variants, which do nothing when the unique exists -/
  | addKeep (ty : Nat) (v : V)
  | remove (ty : Nat)
  | hold (p ty : Nat) (excl : Bool)
  | holdOrDefault (p ty : Nat) (excl : Bool) (v : V)
  | read (p : Nat)
  | write (p : Nat) (v : V)
  | drop (p : Nat)

/-- What a call shows. `nonsense`: the program uses a name it does not hold, or holds already, or writes
through a shared view; the types of Rust exclude this. -/
inductive Out (V : Type) where
  | done
  | value (v : V)
  | refused (e : Err)
  | nonsense
  deriving DecidableEq

/-- Uniques and held views: name, type, exclusive. -/
structure St (V : Type) where
  val : Nat → Option V
  held : List (Nat × Nat × Bool)

def St.init : St V := ⟨fun _ => none, []⟩

def St.find (s : St V) (p : Nat) : Option (Nat × Bool) := (s.held.find? (fun h => h.1 == p)).map (·.2)

/-- Is a view of `ty` held? -/
def St.inUse (s : St V) (ty : Nat) : Bool := s.held.any (fun h => h.2.1 == ty)
/-- Is an exclusive view of `ty` held? -/
def St.locked (s : St V) (ty : Nat) : Bool := s.held.any (fun h => h.2.1 == ty && h.2.2)

def St.hold (s : St V) (p ty : Nat) (excl : Bool) : Out V × St V :=
  if (s.find p).isSome then (.nonsense, s)
  else if (s.val ty).isNone then (.refused .missing, s)
  else if (if excl then s.inUse ty else s.locked ty) then (.refused .borrowed, s)
  else (.done, { s with held := s.held ++ [(p, ty, excl)] })

/-- The meaning of a call. -/
def St.step (s : St V) : Op V → Out V × St V
  | .add ty v => (.done, { s with val := set s.val ty (some v) })
  | .addKeep ty v => (.done, { s with val := set s.val ty (some ((s.val ty).getD v)) })
  | .remove ty =>
    match s.val ty with
    | none => (.refused .missing, s)
    | some v => if s.inUse ty then (.refused .borrowed, s) else (.value v, { s with val := set s.val ty none })
  | .hold p ty excl => s.hold p ty excl
  | .holdOrDefault p ty excl v =>
    if (s.find p).isSome then (.nonsense, s)
    else { s with val := set s.val ty (some ((s.val ty).getD v)) }.hold p ty excl
  | .read p =>
    match s.find p with
    | none => (.nonsense, s)
    | some (ty, _) => match s.val ty with
      | some v => (.value v, s)
      | none => (.nonsense, s)
  | .write p v =>
    match s.find p with
    | some (ty, true) => (.done, { s with val := set s.val ty (some v) })
    | _ => (.nonsense, s)
  | .drop p =>
    match s.find p with
    | some _ => (.done, { s with held := s.held.eraseP (fun h => h.1 == p) })
    | none => (.nonsense, s)

def St.run (s : St V) : List (Op V) → List (Out V) × St V
  | [] => ([], s)
  | op :: ops =>
    let (o, s) := s.step op
    let (os, s) := s.run ops
    (o :: os, s)

/-- The program never adds a unique of a type of which it holds a view. -/
def St.Polite (s : St V) : List (Op V) → Prop
  | [] => True
  | op :: ops => (∀ ty v, op = .add ty v → s.inUse ty = false) ∧ (s.step op).2.Polite ops

/-! ## The model running a program -/

/-- Memory and the held views. -/
structure World (V : Type) where
  mem : Mem V
  views : List (Nat × View)

def World.init : World V := ⟨Mem.new, []⟩

def World.find (w : World V) (p : Nat) : Option View := (w.views.find? (fun h => h.1 == p)).map (·.2)

/-- Keep the view of a successful borrow. -/
def World.keep (w : World V) (p : Nat) : Res (Except Err (View × Mem V)) → Res (Out V × World V)
  | .error f => .error f
  | .ok (.error e) => .ok (.refused e, w)
  | .ok (.ok (v, m)) => .ok (.done, ⟨m, w.views ++ [(p, v)]⟩)

def World.exec (w : World V) : Op V → Res (Out V × World V)
  | .add ty v => .ok (.done, { w with mem := w.mem.addUnique ty v })
  | .addKeep ty v => .ok (.done, { w with mem := w.mem.addUniqueKeep ty v })
  | .remove ty =>
    match w.mem.removeUnique ty with
    | .error f => .error f
    | .ok (.error e) => .ok (.refused e, w)
    | .ok (.ok (v, m)) => .ok (.value v, { w with mem := m })
  | .hold p ty excl => if (w.find p).isSome then .ok (.nonsense, w) else w.keep p (w.mem.borrow ty excl)
  | .holdOrDefault p ty excl v =>
    if (w.find p).isSome then .ok (.nonsense, w) else w.keep p (w.mem.borrowOrDefault ty excl v)
  | .read p =>
    match w.find p with
    | none => .ok (.nonsense, w)
    | some v =>
      match w.mem.read v with
      | .error f => .error f
      | .ok x => .ok (.value x, w)
  | .write p x =>
    match w.find p with
    | some ⟨a, true⟩ =>
      match w.mem.write ⟨a, true⟩ x with
      | .error f => .error f
      | .ok m => .ok (.done, { w with mem := m })
    | _ => .ok (.nonsense, w)
  | .drop p =>
    match w.find p with
    | none => .ok (.nonsense, w)
    | some v =>
      match w.mem.drop v with
      | .error f => .error f
      | .ok m => .ok (.done, ⟨m, w.views.eraseP (fun h => h.1 == p)⟩)

def World.run (w : World V) : List (Op V) → Res (List (Out V) × World V)
  | [] => .ok ([], w)
  | op :: ops =>
    match w.exec op with
    | .error f => .error f
    | .ok (o, w) =>
      match w.run ops with
      | .error f => .error f
      | .ok (os, w) => .ok (o :: os, w)

end Verif.UMem

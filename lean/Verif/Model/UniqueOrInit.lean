import Verif.Spec.Unique

/-!
# Lazily initialised uniques

Models `src/views/unique_or_init.rs`, `src/views/unique_or_init_mut.rs`, `src/views/unique_or_default.rs` and
`src/views/unique_or_default_mut.rs`, as steps: each borrow of the unique and each `add_unique` is one step, since each
takes and releases the lock of the map of storages; other threads, and the closure given to `get_or_init`, run in
between. The calls made on the memory of uniques are those of `Verif/Model/Unique.lean`, given as `f`: running them on
the memory is the model, running them on the specification of uniques is the specification.

Simplifications: a lazy view is named by a number, the view in its `OnceCell` is held under the same number. The borrow of
`AllStorages` it keeps is not modelled (C39, C69).
-/
namespace Verif.UMem
variable {V : Type}

/-- Where a call on a lazy view is. -/
inductive Frame where
  /-- The closure of `get_or_init`, or `T::default`, runs. -/
  | init
  /-- The value was added, the view is borrowed next. `set`: in `set` -/
  | added (set : Bool)
  deriving DecidableEq, Repr

/-- `UniqueOrInitView(Mut)` (`src/views/unique_or_init.rs:13-20`). `filled`: the cell is set. `frames`: the calls that
are under way, innermost first. `dflt`: a `UniqueOrDefaultView(Mut)` being borrowed. -/
structure Lazy where
  ty : Nat
  excl : Bool
  filled : Bool
  frames : List Frame
  dflt : Bool
  deriving DecidableEq, Repr

abbrev Lazies := Nat → Option Lazy

/-- Steps of a program. -/
inductive LOp (V : Type) where
  /-- a call that has nothing to do with lazy views; reads and writes through them are such calls -/
  | plain (op : Op V)
  /-- `world.borrow::<UniqueOrInitView<T>>()` -/
  | openInit (p ty : Nat) (excl : Bool)
  /-- the first borrow of `world.borrow::<UniqueOrDefaultView<T>>()` -/
  | openDefault (p ty : Nat) (excl : Bool)
  /-- `get` -/
  | get (p : Nat)
  /-- `fetch` -/
  | fetch (p : Nat)
  /-- the first step of `set`: `add_unique` -/
  | set (p : Nat) (v : V)
  /-- the first step of `get_or_init`: borrowing -/
  | getOrInit (p : Nat)
  /-- the closure returns: `add_unique` -/
  | ret (p : Nat) (v : V)
  /-- the last step: borrowing -/
  | cont (p : Nat)
  /-- dropping the view -/
  | close (p : Nat)

/-- What a step shows. -/
inductive LOut (V : Type) where
  | out (o : Out V)
  /-- the closure of `get_or_init` is called -/
  | calls
  /-- the call goes on -/
  | goesOn
  /-- `Ok(b)`, or `get().is_some()` -/
  | bool (b : Bool)
  /-- `unreachable!("Cell is expected to be empty")` -/
  | panic
  deriving DecidableEq

/-- Can a call be made on the view? Not while another one is under way, unless the closure of that one makes it. -/
def Lazy.callable (l : Lazy) : Bool :=
  match l.frames with
  | [] => true
  | .init :: _ => !l.dflt
  | .added _ :: _ => false

/-- Does the call name a view that is a lazy one? The type of a lazy view has none of these. -/
def clash (z : Lazies) : Op V → Bool
  | .hold p _ _ | .holdOrDefault p _ _ _ | .drop p => (z p).isSome
  | _ => false

section
variable {σ : Type} (f : σ → Op V → Res (Out V × σ))

/-- One step. -/
def drive (z : Lazies) (s : σ) : LOp V → Res (LOut V × Lazies × σ)
  | .plain op => if clash z op then .ok (.out .nonsense, z, s) else do
    let (o, s) ← f s op
    .ok (.out o, z, s)
  -- `src/views/unique_or_init.rs:140-168`
  | .openInit p ty excl =>
    match z p with
    | some _ => .ok (.out .nonsense, z, s)
    | none => do
      let (o, s) ← f s (.hold p ty excl)
      match o with
      | .done => .ok (.out .done, UMem.set z p (some ⟨ty, excl, true, [], false⟩), s)
      | .refused .missing => .ok (.out .done, UMem.set z p (some ⟨ty, excl, false, [], false⟩), s)
      | o => .ok (.out o, z, s)
  -- `src/views/unique_or_default.rs:29-42`: the first borrow is dropped at once
  | .openDefault p ty excl =>
    match z p with
    | some _ => .ok (.out .nonsense, z, s)
    | none => do
      let (o, s) ← f s (.hold p ty excl)
      match o with
      | .done => do
        let (_, s) ← f s (.drop p)
        .ok (.goesOn, UMem.set z p (some ⟨ty, excl, false, [.added false], true⟩), s)
      | .refused .missing => .ok (.calls, UMem.set z p (some ⟨ty, excl, false, [.init], true⟩), s)
      | o => .ok (.out o, z, s)
  -- `src/views/unique_or_init.rs:26-28`
  | .get p =>
    match z p with
    | none => .ok (.out .nonsense, z, s)
    | some l => if l.callable then .ok (.bool l.filled, z, s) else .ok (.out .nonsense, z, s)
  -- `src/views/unique_or_init.rs:71-86`
  | .fetch p =>
    match z p with
    | none => .ok (.out .nonsense, z, s)
    | some l =>
      if l.callable = false then .ok (.out .nonsense, z, s)
      else if l.filled then .ok (.bool false, z, s)
      else do
        let (o, s) ← f s (.hold p l.ty l.excl)
        match o with
        | .done => .ok (.bool true, UMem.set z p (some { l with filled := true }), s)
        | o => .ok (.out o, z, s)
  -- `src/views/unique_or_init.rs:41-46`
  | .set p v =>
    match z p with
    | none => .ok (.out .nonsense, z, s)
    | some l =>
      if l.callable = false then .ok (.out .nonsense, z, s)
      else if l.filled then .ok (.bool false, z, s)
      else do
        let (_, s) ← f s (.add l.ty v)
        .ok (.goesOn, UMem.set z p (some { l with frames := .added true :: l.frames }), s)
  -- `src/views/unique_or_init.rs:98-116`
  | .getOrInit p =>
    match z p with
    | none => .ok (.out .nonsense, z, s)
    | some l =>
      if l.callable = false then .ok (.out .nonsense, z, s)
      else if l.filled then .ok (.out .done, z, s)
      else do
        let (o, s) ← f s (.hold p l.ty l.excl)
        match o with
        | .done => .ok (.out .done, UMem.set z p (some { l with filled := true }), s)
        | .refused .missing => .ok (.calls, UMem.set z p (some { l with frames := .init :: l.frames }), s)
        | o => .ok (.out o, z, s)
  -- `src/views/unique_or_init.rs:113`, `src/views/unique_or_default.rs:40`
  | .ret p v =>
    match z p with
    | none => .ok (.out .nonsense, z, s)
    | some l =>
      match l.frames with
      | .init :: fr => do
        let (_, s) ← f s (.add l.ty v)
        .ok (.goesOn, UMem.set z p (some { l with frames := .added false :: fr }), s)
      | _ => .ok (.out .nonsense, z, s)
  -- `src/views/unique_or_init.rs:48-55`, `115-132`, `src/views/unique_or_default.rs:46-48`. When the closure filled the
  -- cell, the view that is borrowed here is dropped by the panic; this borrow is left out.
  | .cont p =>
    match z p with
    | none => .ok (.out .nonsense, z, s)
    | some l =>
      match l.frames with
      | .added b :: fr =>
        if l.filled then .ok (.panic, UMem.set z p (some { l with frames := fr }), s)
        else do
          let (o, s) ← f s (.hold p l.ty l.excl)
          match o with
          | .done => .ok (if b then .bool true else .out .done,
              UMem.set z p (some { l with filled := true, frames := fr, dflt := false }), s)
          | o => .ok (.out o, UMem.set z p (if l.dflt then none else some { l with frames := fr }), s)
      | _ => .ok (.out .nonsense, z, s)
  | .close p =>
    match z p with
    | none => .ok (.out .nonsense, z, s)
    | some l =>
      if l.frames ≠ [] then .ok (.out .nonsense, z, s)
      else if l.filled then do
        let (o, s) ← f s (.drop p)
        .ok (.out o, UMem.set z p none, s)
      else .ok (.out .done, UMem.set z p none, s)

/-- A program: the steps of all threads in the order they happen. -/
def driveAll (z : Lazies) (s : σ) : List (LOp V) → Res (List (LOut V) × Lazies × σ)
  | [] => .ok ([], z, s)
  | op :: ops => do
    let (o, z, s) ← drive f z s op
    let (os, z, s) ← driveAll z s ops
    .ok (o :: os, z, s)
end

/-- The model: the calls run on the memory. -/
def runLazy (ops : List (LOp V)) : Res (List (LOut V) × Lazies × World V) :=
  driveAll World.exec (fun _ => none) World.init ops

end Verif.UMem

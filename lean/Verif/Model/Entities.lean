import Verif.Model.EntityId

/-!
# `Entities`: the store of entity ids

Models `src/entities/mod.rs` and `src/entities/iterator.rs`.

`get_unchecked` with an index outside of the vector is `Fault.oob`, checked indexing `data[i]` outside
of it is `Fault.panic`. `usize` and `u64` are both `Nat` (64-bit target), and `uindex()` is `index()`.
-/
namespace Verif

/-- `src/entities/mod.rs:38-42`. `list` is `(new, old)`. The deletion callback is represented by
`hook` (is one registered) and `log`, the ids it has been called with, oldest first. -/
structure Entities where
  data : List EId
  list : Option (Nat × Nat)
  hook : Bool
  log : List EId
  deriving DecidableEq, Repr

namespace Entities

/-- `src/entities/mod.rs:46-52` `new`. -/
def new : Entities := { data := [], list := none, hook := false, log := [] }

/-- `*data.get_unchecked(i)`. -/
def getU (d : List EId) (i : Nat) : Res EId :=
  match d[i]? with
  | some e => .ok e
  | none => .error .oob

/-- `data[i]` (bounds-checked). -/
def getC (d : List EId) (i : Nat) : Res EId :=
  match d[i]? with
  | some e => .ok e
  | none => .error .panic

/-- `data.get_unchecked_mut(i).set_index(v)`. -/
def setIdxU (d : List EId) (i v : Nat) : Res (List EId) := do
  let e ← getU d i
  let e' ← e.setIndex v
  .ok (d.set i e')

/-- `data[i].set_index(v)`. -/
def setIdxC (d : List EId) (i v : Nat) : Res (List EId) := do
  let e ← getC d i
  let e' ← e.setIndex v
  .ok (d.set i e')

/-- `src/entities/mod.rs:55-61` `is_alive`. -/
def isAlive (s : Entities) (e : EId) : Bool :=
  match s.data[e.idx]? with
  | some e' => e == e'
  | none => false

/-- `src/entities/mod.rs:138-160` `generate`. -/
def generate (s : Entities) : Res (EId × Entities) :=
  match s.list with
  | some (new, old) => do
    let list' ←
      if new = old then (.ok none : Res (Option (Nat × Nat)))
      else do
        let e ← getU s.data old
        .ok (some (new, e.idx))
    let data' ← setIdxU s.data old old
    let e ← getU data' old
    .ok (e, { s with data := data', list := list' })
  | none => do
    let e ← EId.new s.data.length
    .ok (e, { s with data := s.data ++ [e] })

/-- The range of fresh ids pushed by `bulk_generate`; `EntityId::new` panics past the last index. -/
def freshIds (start : Nat) : Nat → Res (List EId)
  | 0 => .ok []
  | n + 1 => do
    let e ← EId.new start
    let es ← freshIds (start + 1) n
    .ok (e :: es)

/-- `src/entities/mod.rs:161-166` `bulk_generate`: returns the pushed slice. -/
def bulkGenerate (s : Entities) (count : Nat) : Res (List EId × Entities) := do
  let es ← freshIds s.data.length count
  .ok (es, { s with data := s.data ++ es })

/-- Calling the deletion callback, if there is one (`src/entities/mod.rs:201-203`). -/
def callHook (s : Entities) (e : EId) : Entities :=
  if s.hook then { s with log := s.log ++ [e] } else s

/-- `src/entities/mod.rs:169-209` `delete_unchecked`. -/
def deleteUnchecked (s : Entities) (e : EId) : Res (Bool × Entities) :=
  if s.isAlive e then do
    let cur ← getU s.data e.idx
    let s' ←
      match cur.bumpGen with
      | some b =>
        let d := s.data.set e.idx b
        match s.list with
        | some (new, old) => do
          let d ← setIdxU d new e.idx
          let d ← setIdxU d e.idx EId.maxIndex
          (.ok { s with data := d, list := some (e.idx, old) } : Res Entities)
        | none => do
          let d ← setIdxU d e.idx EId.maxIndex
          .ok { s with data := d, list := some (e.idx, e.idx) }
      | none => .ok s
    .ok (true, s'.callHook e)
  else .ok (false, s)

/-- The `while` loop of `spawn` (`src/entities/mod.rs:326-330`), with fuel. -/
def walk (d : List EId) (target new : Nat) : Nat → Nat → Res Nat
  | 0, _ => .error .diverge
  | fuel + 1, cur => do
    let e ← getC d cur
    if e.idx ≠ target ∧ e.idx ≠ new then walk d target new fuel e.idx
    else .ok cur

/-- The loop linking the slots of the gap left by `spawn` (`src/entities/mod.rs:364-369`). -/
def linkGap (d : List EId) (start : Nat) : Nat → Res (List EId)
  | 0 => .ok d
  | n + 1 => do
    let d ← setIdxC d start (start + 1)
    linkGap d (start + 1) n

/-- `src/entities/mod.rs:304-378` `spawn`.
`entity.gen() + 1` is `u16` arithmetic: with generation 65535 it overflows, which is a panic in a debug
build (modelled) and wraps to 0 in a release build (not modelled).
The fuel of the walk is the number of slots; `walk_spec` in the lemmas shows it suffices. -/
def spawn (s : Entities) (e : EId) : Res (Bool × Entities) :=
  match s.data[e.idx]? with
  | some o =>
    if s.isAlive o then
      if o.gen ≤ e.gen then .ok (true, { s with data := s.data.set e.idx e })
      else .ok (false, s)
    else
      match s.list with
      | some (new, old) =>
        if e.gen + 1 = 65536 then .error .panic
        else if o.gen ≤ e.gen + 1 then do
          let s' ←
            if e.idx = old then
              if new = old then (.ok { s with list := none } : Res Entities)
              else do
                let x ← getC s.data e.idx
                .ok { s with list := some (new, x.idx) }
            else do
              let cur ← walk s.data e.idx new s.data.length old
              let c ← getC s.data cur
              if c.idx = new then do
                let d ← setIdxC s.data cur EId.maxIndex
                .ok { s with data := d, list := some (cur, old) }
              else do
                let nx ← getC s.data c.idx
                let d ← setIdxC s.data cur nx.idx
                .ok { s with data := d }
          .ok (true, { s' with data := s'.data.set e.idx e })
        else .ok (false, s)
      | none => .ok (false, s)
  | none => do
    let oldLen := s.data.length
    let zero ← EId.new 0
    let data := s.data ++ List.replicate (e.idx + 1 - oldLen) zero
    let s := { s with data := data }
    let s' ←
      if data.length - oldLen > 1 then do
        let s ←
          match s.list with
          | some (new, old) => do
            let d ← setIdxC s.data new oldLen
            (.ok { s with data := d, list := some (e.idx - 1, old) } : Res Entities)
          | none => .ok { s with list := some (e.idx - 1, oldLen) }
        let d ← linkGap s.data oldLen (e.idx - 1 - oldLen)
        let d ← setIdxC d (e.idx - 1) EId.maxIndex
        .ok { s with data := d }
      else .ok s
    .ok (true, { s' with data := s'.data.set e.idx e })

/-- The reverse loop of `clear` (`src/entities/mod.rs:404-417`) over the first `n` slots, with
`lastAlive` as current target. Returns the slots and the ids given to the callback. -/
def clearLoop (d : List EId) (lastAlive : Nat) : Nat → Res (List EId × List EId)
  | 0 => .ok (d, [])
  | i + 1 => do
    let id ← getC d i
    match id.bumpGen with
    | some b => do
      let b' ← b.setIndex lastAlive
      let (d', called) ← clearLoop (d.set i b') i i
      .ok (d', id :: called)
    | none => do
      let b' ← id.setIndex lastAlive
      clearLoop (d.set i b') lastAlive i

/-- `src/entities/mod.rs:392-431` `Storage::clear`. -/
def clear (s : Entities) : Res Entities :=
  if s.data.isEmpty then .ok s
  else do
    let init := if s.data.length = EId.maxIndex then 0 else EId.maxIndex
    let (d, called) ← clearLoop s.data init s.data.length
    match d.findIdx? (fun id => id.gen < EId.MAX_GEN),
        d.reverse.findIdx? (fun id => id.gen < EId.MAX_GEN) with
    | some b, some e =>
      .ok { s with
        data := d
        list := some (d.length - e - 1, b)
        log := if s.hook then s.log ++ called else s.log }
    | _, _ => .error .panic

/-- The second loop of `bulk_add_entity` (`src/entities/mod.rs:287-289`):
`iter.zip(repeat_with(|| self.generate()))`. -/
def addEach {C : Type} (s : Entities) : List C → Res (List (EId × C) × Entities)
  | [] => .ok ([], s)
  | c :: cs => do
    let (e, s') ← s.generate
    let (rest, s'') ← addEach s' cs
    .ok ((e, c) :: rest, s'')

/-- `src/entities/mod.rs:270-295` `bulk_add_entity`. The iterator is its lower size hint and the
components it yields. The calls `AddEntity::add_entity(&mut storages, id, component)` are returned as
the list of (id, component) pairs in call order; `bulk_reserve` only allocates.
`(&mut iter).zip(ids)` asks `iter` first: when the ids run out one more component has been taken from
`iter` and is dropped, hence the `+ 1`. -/
def bulkAddEntity {C : Type} (s : Entities) (hint : Nat) (comps : List C) :
    Res (List EId × List (EId × C) × Entities) := do
  let entitiesLen := s.data.length
  let (ids, s1) ← s.bulkGenerate hint
  let first := ids.zip comps
  let (second, s2) ← addEach s1 (comps.drop (ids.length + 1))
  .ok (s2.data.drop entitiesLen, first ++ second, s2)

/-- `src/entities/iterator.rs:18-32`: enumerate and keep the slots holding their own index. -/
def iter (s : Entities) : List EId :=
  s.data.zipIdx.filterMap fun (e, i) => if i = e.idx then some e else none

/-- `src/entities/mod.rs:381-383` `on_deletion`. The log starts afresh. -/
def onDeletion (s : Entities) : Entities := { s with hook := true, log := [] }

/-- `src/entities/mod.rs:386-388` `take_on_deletion`. -/
def takeOnDeletion (s : Entities) : Entities := { s with hook := false }

/-- `src/entities/mod.rs:461-467` `Storage::try_clone`. -/
def tryClone (s : Entities) : Entities :=
  { data := s.data, list := s.list, hook := false, log := [] }

end Entities
end Verif

import Verif.Model.World
import Verif.Model.Tracking

/-!
# Serialization of ids, views, entities and uniques

What a serde format does is reduced to this: it keeps a document as the serializer described it and gives
it back when it is read. Three things differ between formats and matter to the code: whether the format is
human readable, whether it gives a struct back as a sequence (bincode) or as a map (json), and whether it
needs the length of a sequence up front (bincode).

Outcome of a decoding: `.error _` is a panic, `.ok none` (or `false`) is `Err`, otherwise `Ok`.
-/
namespace Verif.Serde
open Tracking
variable {T C : Type}

/-- What the serializers of the crate can write. `C` stands for serialized components. -/
inductive Doc (C : Type) where
  | num (n : Nat)
  | str (s : String)
  | comp (c : C)
  | none
  | some (d : Doc C)
  | seq (l : List (Doc C))
  | fields (l : List (String × Doc C))

/-- What the code can notice of a format. -/
structure Fmt where
  human : Bool
  structSeq : Bool
  needsLen : Bool

/-- serde_json. -/
def json : Fmt := ⟨true, false, false⟩
/-- bincode. -/
def bincode : Fmt := ⟨false, true, true⟩

/-- The `Serialize` and `Deserialize` implementations of a component: reading back what was written gives
the same component. They are user code. -/
structure Codec (T C : Type) where
  enc : T → C
  dec : C → Option T
  ok : ∀ v, dec (enc v) = some v

/-- `Serializer::serialize_struct`. -/
def Fmt.struct (f : Fmt) (l : List (String × Doc C)) : Doc C :=
  if f.structSeq then .seq (l.map Prod.snd) else .fields l

/-! ## Ids -/

/-- `src/entity_id/serde.rs:13-26`. The binary form is the stored word minus one; the word of an id is
`(index + 1) + gen * 2^48` (`Verif/Props/EntityId.lean`). -/
def encId (f : Fmt) (e : EId) : Doc C :=
  if f.human then f.struct [("index", .num e.idx), ("gen", .num e.gen)]
  else .num (e.gen * 2 ^ 48 + e.idx)

/-- `u64` and `u16` as the formats read them: a number out of range is an `Err`. -/
def decNum (bound : Nat) : Doc C → Option Nat
  | .num n => if n < bound then Option.some n else Option.none
  | _ => Option.none

/-- The end of `visit_map`, `src/entity_id/serde.rs:112-115`. -/
def idOf (index gen : Option Nat) : Res (Option EId) :=
  match index, gen with
  | some i, some g => do .ok (some (← EId.fromParts i g))
  | _, _ => .ok none

/-- The loop of `visit_map`, `src/entity_id/serde.rs:91-116`: duplicate and unknown fields are errors. -/
def idMap : List (String × Doc C) → Option Nat → Option Nat → Res (Option EId)
  | [], index, gen => idOf index gen
  | (k, d) :: l, index, gen =>
    if k = "index" then
      match index, decNum (2 ^ 64) d with
      | .none, .some i => idMap l (.some i) gen
      | _, _ => .ok Option.none
    else if k = "gen" then
      match gen, decNum 65536 d with
      | .none, .some g => idMap l index (.some g)
      | _, _ => .ok Option.none
    else .ok Option.none

/-- `visit_seq`, `src/entity_id/serde.rs:75-88`. Elements after the second are refused by the format. -/
def idSeq : List (Doc C) → Res (Option EId)
  | [i, g] => idOf (decNum (2 ^ 64) i) (decNum 65536 g)
  | _ => .ok none

/-- `src/entity_id/serde.rs:28-127`. In binary formats the number read plus one becomes the word, without
a check. When the 48 low bits of that word are all zero it is not the word of an id; the model stops there
with a panic (`index()` underflows later on, `new_unchecked(0)` is undefined behaviour). -/
def decId (f : Fmt) (d : Doc C) : Res (Option EId) :=
  if f.human then
    match d with
    | .fields l => idMap l Option.none Option.none
    | .seq l => idSeq l
    | _ => .ok Option.none
  else
    match decNum (2 ^ 64) d with
    | .some n =>
      if (n + 1) % 2 ^ 48 = 0 then .error .panic
      else .ok (Option.some ⟨(n + 1) % 2 ^ 48 - 1, (n + 1) / 2 ^ 48⟩)
    | .none => .ok Option.none

/-! ## Views -/

/-- One element, the pair `(eid, component)`. -/
def encPair (cd : Codec T C) (f : Fmt) (x : EId × T) : Doc C := .seq [encId f x.1, .comp (cd.enc x.2)]

/-- Decoding of `(EntityId, T)`. -/
def decPair (cd : Codec T C) (f : Fmt) : Doc C → Res (Option (EId × T))
  | .seq [d, .comp c] => do
    match ← decId f d with
    | .some e =>
      match cd.dec c with
      | .some v => .ok (Option.some (e, v))
      | .none => .ok Option.none
    | .none => .ok Option.none
  | _ => .ok Option.none

/-- `View` and `ViewMut` (`src/views/serde/ser/view.rs:36-79`, `view_mut.rs`): the pairs of
`iter().with_id()`, which for one view are the two columns of the storage side by side
(`Verif/Props/Serde.lean` relates this to the model of iteration). With `type_names` they are wrapped
in a struct. -/
def encView (cd : Codec T C) (f : Fmt) (typeName : Option String) (s : SparseSet T) : Doc C :=
  let data : Doc C := .seq ((s.dense.zip s.data).map (encPair cd f))
  match typeName with
  | .some t => f.struct [("type_name", .str t), ("data", data)]
  | .none => data

/-- `src/views/serde/de/view_mut.rs:105-110` and `140-145`, with `add_component_unchecked`
(`src/add_component.rs:38-43`). -/
def addOne (ov : Bool) (now : Nat) (x : EId × T) (s : SparseSet T) : Res (SparseSet T) := do
  if !ov then
    if ← s.contains x.1 then return s
  let (_, s') ← s.insert x.1 x.2 now
  .ok s'

/-- `visit_seq`, `src/views/serde/de/view_mut.rs:132-149`: components are inserted as they are read. -/
def decSeq (cd : Codec T C) (f : Fmt) (ov : Bool) (now : Nat) :
    List (Doc C) → SparseSet T → Res (Bool × SparseSet T)
  | [], s => .ok (true, s)
  | d :: ds, s => do
    match ← decPair cd f d with
    | .none => .ok (false, s)
    | .some x =>
      let s' ← addOne ov now x s
      decSeq cd f ov now ds s'

/-- Decoding of `Vec<(EntityId, T)>`. -/
def decPairs (cd : Codec T C) (f : Fmt) : List (Doc C) → Res (Option (List (EId × T)))
  | [] => .ok (some [])
  | d :: ds => do
    match ← decPair cd f d with
    | .none => .ok Option.none
    | .some x =>
      match ← decPairs cd f ds with
      | .none => .ok Option.none
      | .some xs => .ok (Option.some (x :: xs))

/-- The loop of `visit_map`, `src/views/serde/de/view_mut.rs:80-99`: the last `data` field counts, other
fields are skipped. -/
def typedMap (cd : Codec T C) (f : Fmt) : List (String × Doc C) → Option (List (EId × T)) →
    Res (Option (Option (List (EId × T))))
  | [], data => .ok (some data)
  | (k, d) :: l, data =>
    if k = "data" then
      match d with
      | .seq ds => do
        match ← decPairs cd f ds with
        | .none => .ok Option.none
        | .some xs => typedMap cd f l (Option.some xs)
      | _ => .ok Option.none
    else typedMap cd f l data

/-- `src/views/serde/de/view_mut.rs:101-113`. -/
def addMany (ov : Bool) (now : Nat) : List (EId × T) → SparseSet T → Res (SparseSet T)
  | [], s => .ok s
  | x :: xs, s => do
    let s' ← addOne ov now x s
    addMany ov now xs s'

/-- `src/views/serde/de/view_mut.rs:50-156`. With `type_names` only `visit_map` is implemented: a format
that gives structs back as sequences gets an error. -/
def decView (cd : Codec T C) (f : Fmt) (typed ov : Bool) (now : Nat) (d : Doc C) (s : SparseSet T) :
    Res (Bool × SparseSet T) :=
  if typed then
    match d with
    | .fields l => do
      match ← typedMap cd f l Option.none with
      | .none => .ok (false, s)
      | .some data =>
        let s' ← addMany ov now (data.getD []) s
        .ok (true, s')
    | _ => .ok (false, s)
  else
    match d with
    | .seq ds => decSeq cd f ov now ds s
    | _ => .ok (false, s)

/-! ## Entities -/

/-- `src/views/serde/ser/entities.rs:5-18`, `entities_mut.rs`. The length is not given: formats that need
it refuse. -/
def encEntities (f : Fmt) (s : Entities) : Option (Doc C) :=
  if f.needsLen then Option.none else Option.some (.seq (s.iter.map (encId f)))

/-- `visit_seq`, `src/views/serde/de/entities_mut.rs:42-51`. -/
def spawnSeq (f : Fmt) : List (Doc C) → Entities → Res (Bool × Entities)
  | [], s => .ok (true, s)
  | d :: ds, s => do
    match ← decId f d with
    | .none => .ok (false, s)
    | .some e =>
      let (_, s') ← s.spawn e
      spawnSeq f ds s'

/-- `src/views/serde/de/entities_mut.rs:24-55`. -/
def decEntities (f : Fmt) (d : Doc C) (s : Entities) : Res (Bool × Entities) :=
  match d with
  | .seq ds => spawnSeq f ds s
  | _ => .ok (false, s)

/-! ## Uniques -/

/-- `src/views/serde/ser/unique.rs`, `unique_mut.rs`, `unique_or_default.rs`, `unique_or_default_mut.rs`. -/
def encUnique (cd : Codec T C) (v : UniqueView T) : Doc C := .comp (cd.enc v.read)

/-- Decoding of the value. -/
def decComp (cd : Codec T C) : Doc C → Option T
  | .comp c => cd.dec c
  | _ => Option.none

/-- `src/views/serde/de/unique_mut.rs:24-31`: the value is replaced directly. -/
def decUnique (cd : Codec T C) (d : Doc C) (v : UniqueView T) : Bool × UniqueView T :=
  match decComp cd d with
  | .some x => (true, { v with unique := { v.unique with value := x } })
  | .none => (false, v)

/-- `src/views/serde/de/unique_or_default_mut.rs:24-31`: the value is reached through `deref_mut`, before
anything is read. -/
def decUniqueOrDefault (cd : Codec T C) (d : Doc C) (v : UniqueView T) : Bool × UniqueView T :=
  match decComp cd d with
  | .some x => (true, v.write x)
  | .none => (false, v.write v.read)

/-- `src/views/serde/ser/unique_or_init.rs`, `unique_or_init_mut.rs`: `none` when there is no unique. -/
def encUniqueOrInit (cd : Codec T C) : Option (UniqueView T) → Doc C
  | .some v => .some (encUnique cd v)
  | .none => .none

/-- `src/views/serde/de/unique_or_init_mut.rs:24-38`. -/
def decUniqueOrInit (cd : Codec T C) (d : Doc C) (v : Option (UniqueView T)) : Bool × Option (UniqueView T) :=
  match d with
  | .none => (true, v)
  | .some d =>
    match decComp cd d with
    | .none => (false, v)
    | .some x => (true, v.map fun v => v.write x)
  | _ => (false, v)

/-! ## Worlds -/

/-- `AllStorages::serialize::<View<T>>` (`src/all_storages/mod.rs:1841-1857`, `src/world/mod.rs`): borrowing
makes the storage. -/
def serView (fl : Flags) (cd : Codec T C) (f : Fmt) (w : World T) (k : Nat) : Doc C :=
  encView cd f Option.none (w.stoOr fl k)

/-- `AllStorages::deserialize::<ViewMut<T>>` (`src/all_storages/mod.rs:1889-1905`). The borrow takes a
timestamp. -/
def deView (fl : Flags) (cd : Codec T C) (f : Fmt) (k : Nat) (d : Doc C) (w : World T) :
    Res (Bool × World T) := do
  let (b, s) ← decView cd f false true w.counter d (w.stoOr fl k)
  .ok (b, (w.tick).put k s)

/-- `AllStorages::deserialize::<EntitiesViewMut>`. -/
def deEntities (f : Fmt) (d : Doc C) (w : World T) : Res (Bool × World T) := do
  let (b, s) ← decEntities f d w.ents
  .ok (b, { w with ents := s })

/-- A snapshot: the entities, then the components of the types `ks`. User code made of calls to
`World::serialize`; `none` when the format refuses. -/
def save (fl : Flags) (cd : Codec T C) (f : Fmt) (w : World T) (ks : List Nat) :
    Option (Doc C × List (Nat × Doc C)) :=
  match encEntities f w.ents with
  | .some d => Option.some (d, ks.map fun k => (k, serView fl cd f w k))
  | .none => Option.none

/-- Reading the views of a snapshot. -/
def loadViews (fl : Flags) (cd : Codec T C) (f : Fmt) : List (Nat × Doc C) → World T → Res (Bool × World T)
  | [], w => .ok (true, w)
  | (k, d) :: l, w => do
    let (b, w') ← deView fl cd f k d w
    if b then loadViews fl cd f l w' else .ok (false, w')

/-- Reading a snapshot back. -/
def load (fl : Flags) (cd : Codec T C) (f : Fmt) (x : Doc C × List (Nat × Doc C)) (w : World T) :
    Res (Bool × World T) := do
  let (b, w') ← deEntities f x.1 w
  if b then loadViews fl cd f x.2 w' else .ok (false, w')

end Verif.Serde

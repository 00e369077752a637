import Verif.Model.EntityId

/-!
# `SparseArray`: the paged table from entity index to slot

Models `src/sparse_set/sparse_array.rs`. A page (`Box<[EntityId; N]>`) is a list; the code only ever
creates pages of `BUCKET_SIZE` entries.
-/
namespace Verif

/-- `src/sparse_set/sparse_array.rs:11` with `T = EntityId`, `N = BUCKET_SIZE`. -/
abbrev SparseArray := List (Option (List EId))

namespace SparseArray

/-- `src/sparse_set/sparse_array.rs:15-17` `new`. -/
def new : SparseArray := []

/-- `[EntityId::dead(); N]` (`src/sparse_set/sparse_array.rs:67`). -/
def emptyPage : List EId := List.replicate EId.BUCKET_SIZE EId.dead

/-- `Vec::resize(n + 1, None)` when `n >= len` (`src/sparse_set/sparse_array.rs:60-62`, `73-75`). -/
def grow (a : SparseArray) (n : Nat) : SparseArray :=
  if n ≥ a.length then a ++ List.replicate (n + 1 - a.length) none else a

/-- `let bucket = get_unchecked_mut(b); if bucket.is_none() { *bucket = Some(..) }`
(`src/sparse_set/sparse_array.rs:63-69`, `76-81`). -/
def allocPage (a : SparseArray) (b : Nat) : Res SparseArray :=
  match a[b]? with
  | some (some _) => .ok a
  | some none => .ok (a.set b (some emptyPage))
  | none => .error .oob

/-- `src/sparse_set/sparse_array.rs:53-71` `allocate_at`. -/
def allocateAt (a : SparseArray) (e : EId) : Res SparseArray :=
  if e.isDead then .error .panic
  else allocPage (a.grow e.bucket) e.bucket

/-- The loop of `bulk_allocate` over `n` pages from `b`. -/
def allocPages (a : SparseArray) (b : Nat) : Nat → Res SparseArray
  | 0 => .ok a
  | n + 1 => do
    let a ← allocPage a b
    allocPages a (b + 1) n

/-- `src/sparse_set/sparse_array.rs:72-83` `bulk_allocate`. -/
def bulkAllocate (a : SparseArray) (start stop : EId) : Res SparseArray :=
  allocPages (a.grow stop.bucket) start.bucket (stop.bucket + 1 - start.bucket)

/-- `src/sparse_set/sparse_array.rs:85-90` `get`; the inner `get_unchecked` can be out of bounds. -/
def get (a : SparseArray) (e : EId) : Res (Option EId) :=
  match a[e.bucket]? with
  | none => .ok none
  | some none => .ok none
  | some (some p) => match p[e.bucketIndex]? with
    | some x => .ok (some x)
    | none => .error .oob

/-- `src/sparse_set/sparse_array.rs:92-97` `get_unchecked`; `unreachable_unchecked` is undefined
behaviour, hence `oob`. -/
def getU (a : SparseArray) (e : EId) : Res EId :=
  match a[e.bucket]? with
  | none => .error .oob
  | some none => .error .oob
  | some (some p) => match p[e.bucketIndex]? with
    | some x => .ok x
    | none => .error .oob

/-- `*get_mut_unchecked(e) = v` (`src/sparse_set/sparse_array.rs:99-104`). -/
def setU (a : SparseArray) (e : EId) (v : EId) : Res SparseArray :=
  match a[e.bucket]? with
  | none => .error .oob
  | some none => .error .oob
  | some (some p) =>
    if e.bucketIndex < p.length then .ok (a.set e.bucket (some (p.set e.bucketIndex v)))
    else .error .oob

/-- `src/sparse_set/sparse_array.rs:105-113` `contains`. -/
def contains (a : SparseArray) (e : EId) : Res Bool := do
  match ← a.get e with
  | some x => .ok (x.gen == e.gen)
  | none => .ok false

end SparseArray
end Verif

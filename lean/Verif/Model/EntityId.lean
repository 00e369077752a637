/-!
# `EntityId` as an (index, generation) pair

The pair model used by the rest of the development. `Verif/Props/EntityId.lean` proves that every
operation here agrees with the bit-level one of `Verif/Model/EntityIdBits.lean`.
-/
namespace Verif

/-- How a Rust call can end abnormally: a panic (including failed `assert!`, bounds checks and
`unwrap`), or an access outside of a buffer through `get_unchecked`/raw pointers, which is undefined
behaviour. `diverge` is a loop that ran out of the fuel given to it by the model. -/
inductive Fault where
  | panic
  | oob
  | diverge
  deriving DecidableEq, Repr

/-- Result of a Rust call. -/
abbrev Res := Except Fault

deriving instance DecidableEq for Except

/-- `src/entity_id/mod.rs:15`. `idx` is what `index()` returns, `gen` what `gen()` returns. -/
structure EId where
  idx : Nat
  gen : Nat
  deriving DecidableEq, Repr

namespace EId

/-- `src/entity_id/mod.rs:28` `INDEX_MASK` as a number. -/
def INDEX_MASK : Nat := 2 ^ 48 - 1
/-- `src/entity_id/mod.rs:30` `MAX_GEN`, and `118-120` `max_gen()`. -/
def MAX_GEN : Nat := 65534
/-- `src/entity_id/mod.rs:112-114` `max_index()`. -/
def maxIndex : Nat := INDEX_MASK - 1

/-- The pairs that are ids: the index fits in 48 bits (shifted by one), the generation in 16. -/
def WF (e : EId) : Prop := e.idx < INDEX_MASK ∧ e.gen < 65536

instance (e : EId) : Decidable e.WF := inferInstanceAs (Decidable (_ ∧ _))

/-- `src/entity_id/mod.rs:46-51` `set_index`. -/
def setIndex (e : EId) (i : Nat) : Res EId :=
  if i < INDEX_MASK then .ok { e with idx := i } else .error .panic
/-- `src/entity_id/mod.rs:59-72` `bump_gen`: `none` is `Err(())`. -/
def bumpGen (e : EId) : Option EId :=
  if e.gen < MAX_GEN - 1 then some { e with gen := e.gen + 1 } else none
/-- `src/entity_id/mod.rs:75-79` `new`. -/
def new (i : Nat) : Res EId := if i < INDEX_MASK then .ok ⟨i, 0⟩ else .error .panic
/-- `src/entity_id/mod.rs:99-102` `dead`. -/
def dead : EId := ⟨maxIndex, 65535⟩
/-- `src/entity_id/mod.rs:122-124` `is_dead`: all generation bits set. -/
def isDead (e : EId) : Bool := e.gen == 65535
/-- `src/sparse_set/mod.rs:41` `BUCKET_SIZE = 256 / size_of::<EntityId>()`. -/
def BUCKET_SIZE : Nat := 256 / 8
/-- `src/entity_id/mod.rs:104-106` `bucket`. -/
def bucket (e : EId) : Nat := e.idx / BUCKET_SIZE
/-- `src/entity_id/mod.rs:108-110` `bucket_index`. -/
def bucketIndex (e : EId) : Nat := e.idx % BUCKET_SIZE
/-- `src/entity_id/mod.rs:126-132` `copy_index`. -/
def copyIndex (e o : EId) : EId := { e with idx := o.idx }
/-- `src/entity_id/mod.rs:134-140` `copy_gen`. -/
def copyGen (e o : EId) : EId := { e with gen := o.gen }
/-- `src/entity_id/mod.rs:142-146` `copy_index_gen`: bitwise or of the stored index
(which is the index plus one) and of the generation. -/
def copyIndexGen (e o : EId) : EId := ⟨((e.idx + 1) ||| (o.idx + 1)) - 1, e.gen ||| o.gen⟩

end EId
end Verif

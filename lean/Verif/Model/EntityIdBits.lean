/-!
# `EntityId` as the 64-bit word it is

Models `src/entity_id/mod.rs` (all of it except `Debug`) and `src/entity_id/serde.rs`.
Words are `BitVec 64` with Rust's masks and shifts; arithmetic is the wrapping arithmetic of a
release build (a debug build panics where `index` below would wrap; this happens only for words
whose 48 low bits are all zero, which no constructor except `from_inner` produces).
-/
namespace Verif.Bits

/-- `src/entity_id/mod.rs:15`: `EntityId(NonZeroU64)`. Non-zeroness is a theorem, not a field. -/
abbrev Word := BitVec 64

/-- `src/entity_id/mod.rs:26` `GEN_LEN`. -/
def GEN_LEN : Nat := 16
/-- `src/entity_id/mod.rs:27` `INDEX_LEN = 64 - GEN_LEN`. -/
def INDEX_LEN : Nat := 64 - GEN_LEN
/-- `src/entity_id/mod.rs:28` `INDEX_MASK = !(!0 << INDEX_LEN)`. -/
def INDEX_MASK : Word := ~~~((~~~(0 : Word)) <<< INDEX_LEN)
/-- `src/entity_id/mod.rs:29` `GEN_MASK = !(!0 >> GEN_LEN)`. -/
def GEN_MASK : Word := ~~~((~~~(0 : Word)) >>> GEN_LEN)
/-- `src/entity_id/mod.rs:30` `MAX_GEN = u16::MAX - 1`. -/
def MAX_GEN : Nat := 65535 - 1

/-- `src/entity_id/mod.rs:35-37` `index` (wrapping subtraction). -/
def index (w : Word) : BitVec 64 := (w &&& INDEX_MASK) - 1
/-- `src/entity_id/mod.rs:54-56` `gen`: mask, shift, truncate to `u16`. -/
def gen (w : Word) : BitVec 16 := ((w &&& GEN_MASK) >>> INDEX_LEN).setWidth 16
/-- `src/entity_id/mod.rs:46-51` `set_index`; `none` is the failed `assert!`. -/
def setIndex (w : Word) (i : BitVec 64) : Option Word :=
  if i < INDEX_MASK then some ((i + 1) ||| (w &&& ~~~INDEX_MASK)) else none
/-- `src/entity_id/mod.rs:59-72` `bump_gen`; `none` is `Err(())` (the word is then unchanged). -/
def bumpGen (w : Word) : Option Word :=
  if (gen w).toNat < MAX_GEN - 1 then
    some ((w &&& ~~~GEN_MASK) ||| (((gen w + 1).setWidth 64) <<< INDEX_LEN))
  else none
/-- `src/entity_id/mod.rs:75-79` `new`; `none` is the failed `assert!`. -/
def new (i : BitVec 64) : Option Word := if i < INDEX_MASK then some (i + 1) else none
/-- `src/entity_id/mod.rs:81-92` `new_from_parts` / `new_from_index_and_gen`;
`none` is the failed `assert!`. -/
def newFromParts (i : BitVec 64) (g : BitVec 16) : Option Word :=
  if i < INDEX_MASK then some ((i + 1) ||| ((g.setWidth 64) <<< INDEX_LEN)) else none
/-- `src/entity_id/mod.rs:99-102` `dead`. -/
def dead : Word := ~~~0
/-- `src/entity_id/mod.rs:112-114` `max_index`. -/
def maxIndex : BitVec 64 := INDEX_MASK - 1
/-- `src/entity_id/mod.rs:122-124` `is_dead`. -/
def isDead (w : Word) : Bool := (w &&& GEN_MASK) == GEN_MASK
/-- `src/entity_id/mod.rs:126-132` `copy_index`. -/
def copyIndex (w o : Word) : Word := (w &&& ~~~INDEX_MASK) ||| (o &&& INDEX_MASK)
/-- `src/entity_id/mod.rs:134-140` `copy_gen`. -/
def copyGen (w o : Word) : Word := (w &&& ~~~GEN_MASK) ||| (o &&& GEN_MASK)
/-- `src/entity_id/mod.rs:142-146` `copy_index_gen`: a plain bitwise or of the two words. -/
def copyIndexGen (w o : Word) : Word := w ||| o
/-- `src/entity_id/mod.rs:149-151` `inner`. -/
def inner (w : Word) : BitVec 64 := w
/-- `src/entity_id/mod.rs:154-156` `from_inner`. -/
def fromInner (v : BitVec 64) : Option Word := if v = 0 then none else some v

/-- `src/entity_id/serde.rs:17-21`: the human readable form, the pair of fields `index`, `gen`. -/
def serHuman (w : Word) : BitVec 64 × BitVec 16 := (index w, gen w)
/-- `src/entity_id/serde.rs:79-118`: both visitors end in `new_from_parts(index, gen)`;
`none` is the panic of its `assert!`. -/
def deHuman (p : BitVec 64 × BitVec 16) : Option Word := newFromParts p.1 p.2
/-- `src/entity_id/serde.rs:23-24`: the binary form is `inner - 1`. -/
def serBinary (w : Word) : BitVec 64 := w - 1
/-- `src/entity_id/serde.rs:124-126`: the binary form is read back as `value + 1`
(`new_unchecked`, hence no check that the result is non-zero). -/
def deBinary (v : BitVec 64) : Word := v + 1

end Verif.Bits

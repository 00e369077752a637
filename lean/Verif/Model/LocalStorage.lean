import Verif.Model.World

/-!
# Storages of components that are bound to threads

`NonSend<SparseSet<T>>`, `NonSync<SparseSet<T>>` and `NonSendSync<SparseSet<T>>` implement `Storage` by calling the
`SparseSet` inside, as `SparseSet<T>` does (`src/sparse_set/thread_local.rs`), except for `try_clone`.
-/
namespace Verif.World
variable {V : Type} (fl : Flags)

/-- `src/sparse_set/thread_local.rs:64-90`, `165-191`, `268-294` `try_clone` with a clone function: unlike
`src/sparse_set/mod.rs:835-856` (`cloneSto`) it copies what the storage tracks. -/
def cloneLocal (cl : Nat → V → V) (nowO k : Nat) (s : SparseSet V) : SparseSet V :=
  let n : SparseSet V := newSto fl k
  let n := { n with trkIns := s.trkIns, trkMod := s.trkMod, trkDel := s.trkDel, trkRem := s.trkRem }
  let n := { n with sparse := s.sparse, dense := s.dense, data := s.data.map (cl k) }
  let n := if n.trkIns then { n with insertionData := List.replicate s.dense.length nowO } else n
  if n.trkMod then { n with modificationData := List.replicate s.dense.length 0 } else n

end Verif.World

import Verif.Spec.Lives
import Verif.Lemmas.StorageSpec

/-! Lives of storages against the tables they give. -/
namespace Verif.SparseSet
open StoSpec (Sto)
variable {V : Type}

theorem abs_clone {P : Prop} {s : SparseSet V} {a : Sto V} {L : List (Cell V)} (h : Abs P s a L) (fl : Flags)
    (cl : Nat → V → V) (nowO k : Nat) :
    ∃ L', Abs P (World.cloneSto fl cl nowO k s) (a.cloned fl cl nowO k) L' := by
  have hd : s.dense = L.map (·.id) := congrArg SparseSet.dense h.shape
  have hv : s.data = L.map (·.val) := congrArg SparseSet.data h.shape
  refine ⟨L.map fun c => ⟨c.id, c.gen, cl k c.val, nowO, 0⟩, ?_, ?_, ?_, rfl, rfl, rfl, rfl, rfl, rfl, rfl, rfl,
    rfl, rfl, ?_, fun _ => rfl, fun _ => rfl⟩
  · unfold World.cloneSto SparseSet.build World.newSto SparseSet.new
    simp only [hd, hv, List.map_map, List.length_map]
    congr 1
    · cases (fl k).1 with
      | false => rfl
      | true =>
        simp only [if_true]
        show List.replicate L.length nowO = L.map (fun _ => nowO)
        rw [List.map_const']
    · cases (fl k).2.1 with
      | false => rfl
      | true =>
        simp only [if_true]
        show List.replicate L.length 0 = L.map (fun _ => 0)
        rw [List.map_const']
  · exact h.ok.mapStamp _ (fun _ => ⟨rfl, rfl⟩)
  · intro j
    show Option.map _ (a.rows j) = _
    rw [h.rows]
    unfold SparseSet.cellAt
    rw [List.find?_map]
    show _ = Option.map _ (Option.map _ (List.find? (fun c => c.id.idx == j) L))
    cases List.find? (fun c => c.id.idx == j) L <;> rfl
  · intro hp c hc
    obtain ⟨d, hd, rfl⟩ := List.mem_map.1 hc
    exact h.clean hp d hd

theorem abs_canClone {P : Prop} {s : SparseSet V} {a : Sto V} {L : List (Cell V)} (h : Abs P s a L) (b : Bool) :
    Abs P { s with canClone := b } a L :=
  ⟨congrArg (fun s => { s with canClone := b }) h.shape, h.ok, h.rows, h.trkIns, h.trkMod, h.trkDel, h.trkRem,
    h.lastInsert, h.lastModified, h.hookIns, h.hookRem, h.insCalls, h.removed, h.clean, h.deleted, h.remCalls⟩

end Verif.SparseSet

namespace Verif.StoSpec
variable {V : Type}

theorem Lives.abs {s : SparseSet V} {a : Sto V} (h : Lives s a) : ∃ L, SparseSet.Abs True s a L := by
  induction h with
  | new i m d r => exact ⟨[], SparseSet.abs_new i m d r⟩
  | call _ hs hev ih =>
    obtain ⟨L, hL⟩ := ih
    exact SparseSet.abs_step (Q := True) hL hs (fun q => q) (fun _ => hev)
  | cloned fl cl now k _ ih =>
    obtain ⟨L, hL⟩ := ih
    exact SparseSet.abs_clone hL fl cl now k
  | cloneFn b _ ih =>
    obtain ⟨L, hL⟩ := ih
    exact ⟨L, SparseSet.abs_canClone hL b⟩

end Verif.StoSpec

import Verif.Model.CustomStorageView
import Verif.Lemmas.StorageMapUse

/-! Dropping a guard gives back what borrowing took. -/
namespace Verif.StorageMap
open Verif.Borrow

theorem give_back {b b' : Box} {excl : Bool} {me : Nat} (h : b.take excl me = .ok b') :
    (if excl then { b' with excl := false } else { b' with shared := b'.shared - 1 }) = b ∧ b'.ty = b.ty := by
  cases excl with
  | true =>
    simp only [Box.take, if_true, Box.borrowMut] at h
    split at h
    · cases h
    · split at h
      · cases h
      · rename_i hn
        cases h
        have : b.excl = false := by
          cases hx : b.excl with
          | true => rw [hx] at hn; exact absurd rfl hn
          | false => rfl
        cases b
        simp_all
  | false =>
    simp only [Box.take, Bool.false_eq_true, if_false, Box.borrow] at h ⊢
    split at h
    · cases h
    · split at h
      · cases h
      · rename_i hn
        cases h
        cases b
        simp_all
    · split at h
      · cases h
      · cases h
        cases b
        simp

theorem set_set_same {α : Type} (f : Nat → Option α) (a : Nat) (x : Option α) (y : α) (hy : f a = some y) :
    set (set f a x) a (some y) = f := by
  funext j
  unfold set
  by_cases hj : j = a
  · rw [if_pos hj, hj, hy]
  · rw [if_neg hj, if_neg hj]

theorem grab_unguard {s s' : St} {me a : Nat} {want : Option Ty} {excl : Bool} {named : Id} {g : Guard}
    (h : s.grab me a want excl named = (s', .guard g)) :
    s'.guards = s.guards ++ [g] ∧ s'.unguard s.guards.length g = s := by
  cases hb : s.heap a with
  | none =>
    unfold St.grab at h
    rw [hb] at h
    cases h
  | some b =>
    rcases grab_cases s me a want excl named hb with ⟨e, _, hg⟩ | ⟨b', ht, ⟨_, hg⟩ | ⟨_, hg⟩⟩
    · rw [hg] at h; cases h
    · rw [hg] at h
      cases h
      refine ⟨rfl, ?_⟩
      have hk := give_back ht
      unfold St.unguard
      have h1 : set s.heap a (some b') a = some b' := by simp [set]
      simp only [h1, hk.1]
      rw [set_set_same s.heap a _ b hb]
      have h2 : (s.guards ++ [({ box := a, ty := b.ty, excl := excl, thr := me } : Guard)]).eraseIdx s.guards.length = s.guards := by
        rw [List.eraseIdx_append_of_length_le (Nat.le_refl _)]
        simp
      rw [h2]
    · rw [hg] at h; cases h

end Verif.StorageMap

namespace Verif.SparseSet
variable {T : Type}

theorem modify_get {s s' : SparseSet T} {e : EId} {now : Nat} {x : T} (h : s.modify e now (fun _ => x) = .ok (true, s')) :
    s'.get e = .ok (some x) := by
  unfold modify at h
  simp only [bind, Except.bind] at h
  split at h
  · cases h
  · rename_i o ho
    cases o with
    | none => cases h
    | some i =>
      dsimp only at h
      split at h
      · cases h
      · split at h
        · cases h
        · split at h
          · cases h
          · rename_i m _ _ y hy _ d hd
            cases h
            have h1 : ({ s with data := d, modificationData := m } : SparseSet T).indexOf e = .ok (some i) := ho
            unfold get
            simp only [h1, bind, Except.bind]
            unfold vecSetU at hd
            split at hd
            · rename_i hlt
              cases hd
              simp [vecGetU, hlt]
            · cases hd

end Verif.SparseSet

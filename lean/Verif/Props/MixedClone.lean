import Verif.Model.MixedClone
import Verif.Spec.Mixed
import Verif.Props.Mixed
import Verif.Props.World

/-!
# C104: what `clone_storages_to` does to uniques, entities and storages of the user
-/
namespace Verif.Mix
open Tracking (UniqueStorage)
variable {V U X : Type} {fl : Flags} {cl : Nat → V → V} {clu : Nat → U → U} {cx : Nat → X → Option X}

theorem cloneLoop_lookup (nowO : Nat) : ∀ (l o : List (Nat × Sto V U X)), (l.map Prod.fst).Nodup → ∀ (k : Nat),
    lookupK (All.cloneLoop fl cl clu cx nowO l o) k =
      match lookupK l k with
      | some s => (s.tryClone fl cl clu cx nowO k).or (lookupK o k)
      | none => lookupK o k
  | [], o, _, k => rfl
  | (j, s) :: l, o, hn, k => by
    rw [List.map_cons, List.nodup_cons] at hn
    obtain ⟨hj, hn⟩ := hn
    have hnone : ∀ (l : List (Nat × Sto V U X)), j ∉ l.map Prod.fst → lookupK l j = none := by
      intro l
      induction l with
      | nil => intro _; rfl
      | cons x l ih =>
        intro h
        obtain ⟨i, y⟩ := x
        rw [List.map_cons, List.mem_cons, not_or] at h
        show (if j = i then some y else lookupK l j) = none
        rw [if_neg h.1, ih h.2]
    unfold All.cloneLoop
    show _ = match (if k = j then some s else lookupK l k) with
      | some s => (s.tryClone fl cl clu cx nowO k).or (lookupK o k)
      | none => lookupK o k
    by_cases hk : k = j
    · subst hk
      rw [if_pos rfl]
      cases hs : s.tryClone fl cl clu cx nowO k with
      | none => simp only [cloneLoop_lookup nowO l o hn k, hnone l hj]; rw [hs]; rfl
      | some s' => simp only [cloneLoop_lookup nowO l _ hn k, hnone l hj, World.lookupK_setK, if_true]; rw [hs]; rfl
    · rw [if_neg hk]
      cases hs : s.tryClone fl cl clu cx nowO j with
      | none => simp only [cloneLoop_lookup nowO l o hn k]
      | some s' => simp only [cloneLoop_lookup nowO l _ hn k, World.lookupK_setK, if_neg hk]

theorem cloneLoop_nodup (nowO : Nat) : ∀ (l o : List (Nat × Sto V U X)), (o.map Prod.fst).Nodup →
    ((All.cloneLoop fl cl clu cx nowO l o).map Prod.fst).Nodup
  | [], _, h => h
  | (k, s) :: l, o, h => by
    unfold All.cloneLoop
    split
    · exact cloneLoop_nodup nowO l _ (World.setK_nodup h _ _)
    · exact cloneLoop_nodup nowO l o h

theorem cloneSto_get (nowO k : Nat) (s : SparseSet V) (e : EId) :
    (World.cloneSto fl cl nowO k s).get e = (s.get e).map (Option.map (cl k)) := by
  unfold SparseSet.get
  have hi : (World.cloneSto fl cl nowO k s).indexOf e = s.indexOf e := rfl
  have hd : (World.cloneSto fl cl nowO k s).data = s.data.map (cl k) := rfl
  rw [hi, hd]
  simp only [bind, Except.bind]
  cases s.indexOf e with
  | error x => rfl
  | ok a =>
    cases a with
    | none => rfl
    | some i =>
      simp only [vecGetU, List.getElem?_map]
      cases s.data[i]? <;> rfl

variable {m o : All V U X}

/-- C104: what the other world has afterwards. Of a unique whose clone is registered it has a clone, which counts as added by this call
and not modified; of one whose clone is not registered, and of what is only in the other world, it has what it had. -/
theorem C104_uniques (hn : (m.stos.map Prod.fst).Nodup) (k : Nat) :
    (∀ u : UniqueStorage U, lookupK m.stos k = some (.unique u) → u.canClone = true →
      lookupK (m.cloneStoragesTo fl cl clu cx o).stos k = some (.unique
        { value := clu k u.value, insert := o.counter, modification := 0, lastInsert := 0, lastModification := 0,
          canClone := false })) ∧
    (∀ u : UniqueStorage U, lookupK m.stos k = some (.unique u) → u.canClone = false →
      lookupK (m.cloneStoragesTo fl cl clu cx o).stos k = lookupK o.stos k) ∧
    (lookupK m.stos k = none → lookupK (m.cloneStoragesTo fl cl clu cx o).stos k = lookupK o.stos k) := by
  have h := cloneLoop_lookup (fl := fl) (cl := cl) (clu := clu) (cx := cx) o.counter m.stos o.stos hn k
  refine ⟨fun u hu hc => ?_, fun u hu hc => ?_, fun hu => ?_⟩
  · rw [hu] at h
    refine h.trans ?_
    simp only [Sto.tryClone, UniqueStorage.tryClone, hc]
    rfl
  · rw [hu] at h
    refine h.trans ?_
    simp only [Sto.tryClone, UniqueStorage.tryClone, hc]
    rfl
  · rw [hu] at h
    exact h

/-- C104: the entities are always cloned, components only if their clone is registered; a user's storage decides for itself. -/
theorem C104_others (hn : (m.stos.map Prod.fst).Nodup) (k : Nat) :
    (∀ E, lookupK m.stos k = some (.entities E) → ∃ E', lookupK (m.cloneStoragesTo fl cl clu cx o).stos k = some (.entities E') ∧
      ∀ e, E'.isAlive e = E.isAlive e) ∧
    (∀ s : SparseSet V, lookupK m.stos k = some (.component s) → s.canClone = true →
      ∃ s', lookupK (m.cloneStoragesTo fl cl clu cx o).stos k = some (.component s') ∧ s'.dense = s.dense ∧
        (∀ e, s'.get e = (s.get e).map (Option.map (cl k))) ∧ s'.deletionData = [] ∧ s'.removalData = []) ∧
    (∀ s : SparseSet V, lookupK m.stos k = some (.component s) → s.canClone = false →
      lookupK (m.cloneStoragesTo fl cl clu cx o).stos k = lookupK o.stos k) ∧
    (∀ x : X, lookupK m.stos k = some (.user x) →
      lookupK (m.cloneStoragesTo fl cl clu cx o).stos k = ((cx o.counter x).map Sto.user).or (lookupK o.stos k)) := by
  have h := cloneLoop_lookup (fl := fl) (cl := cl) (clu := clu) (cx := cx) o.counter m.stos o.stos hn k
  refine ⟨fun E hu => ?_, fun s hu hc => ?_, fun s hu hc => ?_, fun x hu => ?_⟩
  · rw [hu] at h
    exact ⟨E.tryClone, h, fun e => rfl⟩
  · rw [hu] at h
    refine ⟨World.cloneSto fl cl o.counter k s, h.trans ?_, rfl, cloneSto_get _ _ _, rfl, rfl⟩
    simp only [Sto.tryClone, hc]
    rfl
  · rw [hu] at h
    refine h.trans ?_
    simp only [Sto.tryClone, hc]
    rfl
  · rw [hu] at h
    exact h

/-- C104 and M7: the clone of a unique is not registered to be cloned: cloning the clone leaves the third world without it. -/
theorem C104_clone_of_clone (hn : (m.stos.map Prod.fst).Nodup) {k : Nat} {u : UniqueStorage U}
    (hu : lookupK m.stos k = some (.unique u)) (hc : u.canClone = true) (p : All V U X)
    (hno : (o.stos.map Prod.fst).Nodup) :
    lookupK ((m.cloneStoragesTo fl cl clu cx o).cloneStoragesTo fl cl clu cx p).stos k = lookupK p.stos k :=
  (C104_uniques (o := p) (cloneLoop_nodup _ _ _ hno) k).2.1 _ ((C104_uniques (o := o) hn k).1 u hu hc) rfl

/-- A world with two uniques, the first registered to be cloned, around its entities. -/
def cloneDemo : All Nat Nat Nat :=
  { stos := [(70, .unique { value := 7, insert := 1, modification := 2, lastInsert := 0, lastModification := 0, canClone := true }),
      (90, .entities WSpec.demo.ents),
      (71, .unique { value := 8, insert := 1, modification := 2, lastInsert := 0, lastModification := 0, canClone := false })],
    counter := 5 }

/-- A world with the second unique and a storage of its own. -/
def cloneTarget : All Nat Nat Nat :=
  { stos := [(71, .unique { value := 100, insert := 1, modification := 0, lastInsert := 0, lastModification := 0, canClone := false }),
      (80, .user 0), (90, .entities Entities.new)], counter := 3 }

example : (cloneDemo.stos.map Prod.fst).Nodup := by decide

example : (uniques (cloneDemo.cloneStoragesTo WSpec.demoFlags (fun _ v => v) (fun _ v => v + 1) (fun _ _ => none) cloneTarget).stos).map
    (fun x => (x.1, x.2.value, x.2.insert)) = [(71, 100, 1), (70, 8, 3)] := rfl

example : (cloneTarget.stos.map Prod.fst).Nodup := by decide

end Verif.Mix

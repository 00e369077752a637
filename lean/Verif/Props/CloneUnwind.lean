import Verif.Props.MoveUnwind

/-!
# `clone_storages_to` when clone functions or destructors panic
-/
namespace Verif
open WSpec (PReach Cloneable demoFlags pdemo pdemo_reach)
open World
variable {V : Type} {fl : Flags}

/-- C73, `clone_storages_to`, cut short or not, in any order of the storages. The types in `done` that can be cloned have
exactly the clones, never a part of them; all other types have what they had. The entities are those of the source or
those the other world had. When the call returned, everything is done. -/
theorem C73_clone_storages {w : World V} {I : List EId} (hr : PReach fl w I) (o : World V) (cl : Nat → V → V)
    (c : Nat → V → Bool) (d : Nat → Bool) {before after : List (Nat × SparseSet V)} (hp : (before ++ after).Perm w.stos) :
    ∃ (out : Out Unit) (o' : World V) (done : List Nat), w.cloneStoragesToU fl cl c d before after o = (out, o') ∧
      (∀ k x v, k ∈ done → Cloneable w k → x.gen < 65535 → w.get k x = .ok v → o'.get k x = .ok (v.map (cl k))) ∧
      (∀ k x, ¬ (k ∈ done ∧ Cloneable w k) → o'.get k x = o.get k x) ∧
      ((∀ x, o'.isAlive x = w.isAlive x) ∨ ∀ x, o'.isAlive x = o.isAlive x) ∧
      (out = .returned () → (∀ k, Cloneable w k → k ∈ done) ∧ ∀ x, o'.isAlive x = w.isAlive x) := by
  obtain ⟨A, Q, hok⟩ := preach_ok hr
  obtain ⟨out, o', ds, h1, h2, h3, h4, h5, h6, _⟩ := hok.cloneStoragesToU (fl := fl) o cl c d hp
  obtain ⟨g1, g2⟩ := Replaced.get hok h4 (fun k s hm => lookupK_of_mem hok.nodup (h2 _ hm))
  refine ⟨out, o', ds.map Prod.fst, h1, g1, fun k x h => g2 k x h, ?_, fun ho => ⟨?_, ?_⟩⟩
  · rcases h5 with h5 | h5
    · exact .inl fun x => by unfold World.isAlive; rw [h5]; rfl
    · exact .inr fun x => by unfold World.isAlive; rw [h5.1]
  · rintro k ⟨s, hs, _⟩
    exact List.mem_map.2 ⟨_, h6 ho _ (lookupK_mem hs), rfl⟩
  · rcases h5 with h5 | h5
    · exact fun x => by unfold World.isAlive; rw [h5]; rfl
    · exact absurd ho h5.2.1

/-- A clone into a world without components, cut short or not, that replaces the entities before it clones components,
leaves a world all theorems of C73 apply to. -/
theorem C73_clone_usable_partial {w o : World V} {I J : List EId} (hr : PReach fl w I) (hro : PReach fl o J) (cl : Nat → V → V)
    (c : Nat → V → Bool) (d : Nat → Bool) {after : List (Nat × SparseSet V)} (hp : after.Perm w.stos)
    (hemp : ∀ k e v, o.get k e ≠ .ok (some v)) :
    PReach fl (w.cloneStoragesToU fl cl c d [] after o).2 I := by
  refine .cloneStorages (before := []) hr hro hp rfl (.inr rfl) fun k s hs => .inr ?_
  obtain ⟨B, Q, hoko⟩ := preach_ok hro
  have hsto := hoko.sto k
  rw [hs] at hsto
  generalize hB : B k = bo at hsto
  cases hsto with
  | @some _ a L hab =>
    have hd : s.dense = L.map (·.id) := congrArg SparseSet.dense hab.shape
    cases L with
    | nil => exact hd
    | cons x L =>
      exfalso
      have hrow : a.rows x.id.idx = some x.toRow := by
        rw [hab.rows]
        unfold SparseSet.cellAt
        simp
      have hI := hoko.given k a hB _ _ hrow
      have hv := hoko.ent.valid_issued hI
      refine hemp k ⟨x.id.idx, x.toRow.gen⟩ x.toRow.val ?_
      rw [hoko.get k hv.1]
      unfold look
      rw [hB]
      simp [StoSpec.lookup, hrow]

/-- When nothing panics this is the call C47 is about. -/
theorem C73_calm_clone (w o : World V) (cl : Nat → V → V) :
    w.cloneStoragesToU fl cl (fun _ _ => false) (fun _ => false) w.stos [] o = (.returned (), w.cloneStoragesTo fl cl o) := by
  have h : ∀ (l : List (Nat × SparseSet V)) (o : World V) (now : Nat),
      cloneLoopU fl cl (fun _ _ => false) (fun _ => false) now l o = (.returned (), cloneLoop fl cl now l o) := by
    intro l
    induction l with
    | nil => intro o now; rfl
    | cons x l ih =>
      obtain ⟨k, s⟩ := x
      intro o now
      unfold cloneLoopU cloneLoop
      have : s.data.any (fun _ => false) = false := by simp
      by_cases hc : s.canClone = true
      · simp only [hc, if_true, this, Bool.false_eq_true, if_false, Bool.false_and, ih]
      · simp only [hc, Bool.false_eq_true, if_false, ih]
  unfold World.cloneStoragesToU
  rw [h]
  rfl

/-- Both the clone function of the second type panics and the entities come last: the first type is cloned, nothing else. -/
example : ∃ (w o' : World Nat) (a b : Nat × SparseSet Nat), PReach demoFlags w [⟨0, 0⟩, ⟨1, 0⟩] ∧ Cloneable w 0 ∧ Cloneable w 1 ∧
    w.stos = [a, b] ∧
    w.cloneStoragesToU demoFlags (fun _ v => v + 1) (fun k _ => k == 1) (fun _ => false) [a, b] [] World.new =
      (.unwound .closure, o') ∧ o'.get 0 ⟨0, 0⟩ = .ok (some 11) ∧ o'.get 1 ⟨0, 0⟩ = .ok none ∧
    o'.isAlive ⟨0, 0⟩ = false :=
  ⟨_, _, _, _, .registerClone 1 (.registerClone 0 pdemo_reach), ⟨_, rfl, rfl⟩, ⟨_, rfl, rfl⟩, rfl, rfl, rfl, rfl, rfl⟩

/-- The same with the entities first: the world is one the theorems of C73 apply to. -/
example : ∃ (w o' : World Nat), PReach demoFlags w [⟨0, 0⟩, ⟨1, 0⟩] ∧
    w.cloneStoragesToU demoFlags (fun _ v => v + 1) (fun k _ => k == 1) (fun _ => false) [] w.stos World.new =
      (.unwound .closure, o') ∧ PReach demoFlags o' [⟨0, 0⟩, ⟨1, 0⟩] ∧ o'.get 0 ⟨0, 0⟩ = .ok (some 11) ∧
    o'.get 1 ⟨0, 0⟩ = .ok none ∧ o'.isAlive ⟨0, 0⟩ = true :=
  ⟨_, _, .registerClone 1 (.registerClone 0 pdemo_reach), rfl,
    C73_clone_usable_partial (.registerClone 1 (.registerClone 0 pdemo_reach)) (.init false) (fun _ v => v + 1)
      (fun k _ => k == 1) (fun _ => false) (.refl _)
      (fun k e v h => by cases h), rfl, rfl, rfl⟩

/-- C73 is false after a `clone_storages_to` that was cut short: the other world, new and empty, has components of ids it
never handed out, and its next `add_entity`, of an entity without components, gives an id that has one. -/
theorem C73_clone_storages_fails : ∃ (w o' o'' : World Nat), PReach demoFlags w [⟨0, 0⟩, ⟨1, 0⟩] ∧
    w.cloneStoragesToU demoFlags (fun _ v => v + 1) (fun k _ => k == 1) (fun _ => false) w.stos [] World.new =
      (.unwound .closure, o') ∧
    (∀ x, o'.isAlive x = false) ∧ o'.get 0 ⟨0, 0⟩ = .ok (some 11) ∧
    o'.addEntityU demoFlags calm [] = .ok (⟨0, 0⟩, .returned (), o'') ∧ o''.isAlive ⟨0, 0⟩ = true ∧
    o''.get 0 ⟨0, 0⟩ = .ok (some 11) :=
  ⟨_, _, _, .registerClone 1 (.registerClone 0 pdemo_reach), rfl, fun _ => rfl, rfl, rfl, rfl, rfl⟩

end Verif

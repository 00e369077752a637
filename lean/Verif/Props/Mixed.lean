import Verif.Spec.Mixed
import Verif.Props.World

/-!
# C103: uniques and other storages beside the calls on entities

`Shows m w` ties the map with all kinds of storages to the world the other theorems are about: every call does to the entities and
components what it does there (`C103_same_*`, so that the theorems about `w` hold of `m`), to the uniques what `Beside` says, and calls
each storage of the user once.
-/
namespace Verif.Mix
open Tracking (UniqueStorage)
variable {V U X : Type}

/-- What a loop does to each kind of storage. -/
structure Acts (f : Nat → Sto V U X → Res (Sto V U X)) (g : Nat → SparseSet V → Res (SparseSet V)) (r : Entities → Res Entities)
    (q : UniqueStorage U → UniqueStorage U) (z : Nat → X → X) : Prop where
  comp : ∀ k s s', g k s = .ok s' → f k (.component s) = .ok (.component s')
  ents : ∀ k E E', r E = .ok E' → f k (.entities E) = .ok (.entities E')
  uniq : ∀ k u, f k (.unique u) = .ok (.unique (q u))
  user : ∀ k x, f k (.user x) = .ok (.user (z k x))

theorem loop_ok {f : Nat → Sto V U X → Res (Sto V U X)} {g : Nat → SparseSet V → Res (SparseSet V)} {r : Entities → Res Entities}
    {q : UniqueStorage U → UniqueStorage U} {z : Nat → X → X} (h : Acts f g r q z) (rE : Entities → Entities) :
    ∀ (l : List (Nat × Sto V U X)) (c' : List (Nat × SparseSet V)), World.mapStos g (comps l) = .ok c' →
      (∀ E ∈ ents l, r E = .ok (rE E)) →
      ∃ l', loop f l = .ok l' ∧ comps l' = c' ∧ ents l' = (ents l).map rE ∧
        uniques l' = (uniques l).map (fun x => (x.1, q x.2)) ∧ users l' = (users l).map (fun x => (x.1, z x.1 x.2)) ∧
        shape l' = shape l
  | [], c', hc, _ => by
    cases hc
    exact ⟨[], rfl, rfl, rfl, rfl, rfl, rfl⟩
  | (k, .component s) :: l, c', hc, he => by
    have hc : World.mapStos g ((k, s) :: comps l) = .ok c' := hc
    unfold World.mapStos at hc
    simp only [bind, Except.bind] at hc
    split at hc
    · cases hc
    rename_i s' hs
    split at hc
    · cases hc
    rename_i c2 h2
    cases hc
    obtain ⟨l', h1, h3, h4, h5, h6, h7⟩ := loop_ok h rE l c2 h2 he
    refine ⟨(k, .component s') :: l', ?_, ?_, h4, h5, h6, ?_⟩
    · simp only [loop, h.comp k s s' hs, h1, bind, Except.bind]
    · show (k, s') :: comps l' = _
      rw [h3]
    · exact List.cons_eq_cons.2 ⟨rfl, h7⟩
  | (k, .entities E) :: l, c', hc, he => by
    have hE := he E (List.mem_cons_self)
    obtain ⟨l', h1, h3, h4, h5, h6, h7⟩ := loop_ok h rE l c' hc (fun E' hm => he E' (List.mem_cons_of_mem _ hm))
    refine ⟨(k, .entities (rE E)) :: l', ?_, h3, ?_, h5, h6, ?_⟩
    · simp only [loop, h.ents k E _ hE, h1, bind, Except.bind]
    · show rE E :: ents l' = (E :: ents l).map rE
      rw [h4]; rfl
    · exact List.cons_eq_cons.2 ⟨rfl, h7⟩
  | (k, .unique u) :: l, c', hc, he => by
    obtain ⟨l', h1, h3, h4, h5, h6, h7⟩ := loop_ok h rE l c' hc he
    refine ⟨(k, .unique (q u)) :: l', ?_, h3, h4, ?_, h6, ?_⟩
    · simp only [loop, h.uniq k u, h1, bind, Except.bind]
    · show (k, q u) :: uniques l' = _
      rw [h5]; rfl
    · exact List.cons_eq_cons.2 ⟨rfl, h7⟩
  | (k, .user x) :: l, c', hc, he => by
    obtain ⟨l', h1, h3, h4, h5, h6, h7⟩ := loop_ok h rE l c' hc he
    refine ⟨(k, .user (z k x)) :: l', ?_, h3, h4, h5, ?_, ?_⟩
    · simp only [loop, h.user k x, h1, bind, Except.bind]
    · show (k, z k x) :: users l' = _
      rw [h6]; rfl
    · exact List.cons_eq_cons.2 ⟨rfl, h7⟩

theorem onEntities_ok {R : Type} {g : Entities → Res (R × Entities)} {E E' : Entities} {b : R} (hg : g E = .ok (b, E')) :
    ∀ (l : List (Nat × Sto V U X)), ents l = [E] → ∃ l', onEntities g l = .ok (b, l') ∧ comps l' = comps l ∧ ents l' = [E'] ∧
      uniques l' = uniques l ∧ users l' = users l ∧ shape l' = shape l
  | [], h => by cases h
  | (k, .entities E0) :: l, h => by
    have h : E0 :: ents l = [E] := h
    injection h with h1 h2
    subst h1
    refine ⟨(k, .entities E') :: l, ?_, rfl, ?_, rfl, rfl, rfl⟩
    · simp only [onEntities, hg, bind, Except.bind]
    · show E' :: ents l = _
      rw [h2]
  | (k, .component s) :: l, h => by
    obtain ⟨l', h1, h2, h3, h4, h5, h6⟩ := onEntities_ok hg l h
    refine ⟨(k, .component s) :: l', ?_, ?_, h3, h4, h5, ?_⟩
    · simp only [onEntities, h1, bind, Except.bind]
    · show (k, s) :: comps l' = (k, s) :: comps l
      rw [h2]
    · exact List.cons_eq_cons.2 ⟨rfl, h6⟩
  | (k, .unique u) :: l, h => by
    obtain ⟨l', h1, h2, h3, h4, h5, h6⟩ := onEntities_ok hg l h
    refine ⟨(k, .unique u) :: l', ?_, h2, h3, ?_, h5, ?_⟩
    · simp only [onEntities, h1, bind, Except.bind]
    · show (k, u) :: uniques l' = (k, u) :: uniques l
      rw [h4]
    · exact List.cons_eq_cons.2 ⟨rfl, h6⟩
  | (k, .user x) :: l, h => by
    obtain ⟨l', h1, h2, h3, h4, h5, h6⟩ := onEntities_ok hg l h
    refine ⟨(k, .user x) :: l', ?_, h2, h3, h4, ?_, ?_⟩
    · simp only [onEntities, h1, bind, Except.bind]
    · show (k, x) :: users l' = (k, x) :: users l
      rw [h5]
    · exact List.cons_eq_cons.2 ⟨rfl, h6⟩

theorem map_beside (l : List (Nat × UniqueStorage U)) : l.map (fun x => (x.1, id x.2)) = l := by
  induction l with
  | nil => rfl
  | cons x l ih => rw [List.map_cons, ih]; rfl

variable {um : User X} {m : All V U X} {w w' : World V}

/-- C103, `strip`: uniques are not touched, each storage of the user is told once. -/
theorem C103_strip (hs : Shows m w) {e : EId} (hw : w.strip e = .ok w') :
    ∃ m', m.strip um e = .ok m' ∧ Shows m' w' ∧ Beside id (fun _ => um.delete e m.counter) m m' := by
  unfold World.strip at hw
  simp only [bind, Except.bind] at hw
  split at hw
  · cases hw
  rename_i c' hc
  cases hw
  rw [← hs.comps, ← hs.clock] at hc
  obtain ⟨l', h1, h2, h3, h4, h5, h6⟩ := loop_ok (f := fun _ => Sto.delete um e m.counter) (r := .ok) (q := id)
    (z := fun _ => um.delete e m.counter)
    ⟨fun k s s' hh => by simp only [Sto.delete, hh, bind, Except.bind], fun k E E' hh => by cases hh; rfl, fun _ _ => rfl,
      fun _ _ => rfl⟩ id m.stos c' hc (fun _ _ => rfl)
  refine ⟨⟨l', m.counter + 1⟩, ?_, ⟨h2, ?_, ?_⟩, ⟨h4, h5, h6⟩⟩
  · unfold All.strip; simp only [h1, bind, Except.bind]
  · show ents l' = _
    rw [h3, hs.ents]; rfl
  · show m.counter + 1 = w.counter + 1
    rw [hs.clock]

/-- C103, `delete_entity`. -/
theorem C103_delete_entity (hs : Shows m w) {e : EId} {b : Bool} (hw : w.deleteEntity e = .ok (b, w')) :
    ∃ m', m.deleteEntity um e = .ok (b, m') ∧ Shows m' w' ∧
      Beside id (fun _ x => if b then um.delete e m.counter x else x) m m' := by
  unfold World.deleteEntity at hw
  simp only [bind, Except.bind] at hw
  split at hw
  · cases hw
  rename_i p hp
  obtain ⟨b0, E'⟩ := p
  obtain ⟨l1, h1, h2, h3, h4, h5, h6⟩ := onEntities_ok (g := fun E => E.deleteUnchecked e) hp m.stos hs.ents
  cases b0 with
  | true =>
    simp only [if_true] at hw
    split at hw
    · cases hw
    rename_i w2 hw2
    cases hw
    obtain ⟨m', g1, g2, g3⟩ := C103_strip (um := um) (m := ⟨l1, m.counter⟩) (w := { w with ents := E' }) ⟨by rw [h2, hs.comps], h3, hs.clock⟩ hw2
    refine ⟨m', ?_, g2, ⟨?_, ?_, g3.ids.trans h6⟩⟩
    · unfold All.deleteEntity
      simp only [h1, bind, Except.bind, if_true, g1]
    · rw [g3.uniques]; show (uniques l1).map _ = _; rw [h4]
    · rw [g3.users]; show (users l1).map _ = _; rw [h5]; rfl
  | false =>
    simp only [Bool.false_eq_true, if_false] at hw
    cases hw
    refine ⟨⟨l1, m.counter⟩, ?_, ⟨by rw [h2, hs.comps], h3, hs.clock⟩, ⟨?_, ?_, h6⟩⟩
    · unfold All.deleteEntity
      simp only [h1, bind, Except.bind, Bool.false_eq_true, if_false]
    · rw [map_beside]; exact h4
    · show users l1 = (users m.stos).map _
      rw [h5]
      simp

/-- C103, `bulk_strip`. -/
theorem C103_bulk_strip (hs : Shows m w) {es : List EId} (hw : w.bulkStrip es = .ok w') :
    ∃ m', m.bulkStrip um es = .ok m' ∧ Shows m' w' ∧
      Beside id (fun _ x => es.foldl (fun x e => um.delete e m.counter x) x) m m' := by
  unfold World.bulkStrip at hw
  simp only [bind, Except.bind] at hw
  split at hw
  · cases hw
  rename_i c' hc
  cases hw
  rw [← hs.comps, ← hs.clock] at hc
  have hcomp : ∀ (es : List EId) (s s' : SparseSet V), World.stoDeleteAll m.counter es s = .ok s' →
      All.deleteEach um m.counter es (Sto.component (U := U) s) = .ok (.component s') := by
    intro es
    induction es with
    | nil => intro s s' hh; cases hh; rfl
    | cons e es ih =>
      intro s s' hh
      unfold World.stoDeleteAll at hh
      simp only [bind, Except.bind] at hh
      split at hh
      · cases hh
      rename_i s1 h1
      simp only [All.deleteEach, Sto.delete, h1, bind, Except.bind]
      exact ih s1 s' hh
  have hents : ∀ (es : List EId) (E : Entities),
      All.deleteEach um m.counter es (Sto.entities (V := V) (U := U) E) = .ok (.entities E) := by
    intro es E
    induction es with
    | nil => rfl
    | cons e es ih => simp only [All.deleteEach, Sto.delete, bind, Except.bind]; exact ih
  have huniq : ∀ (es : List EId) (u : UniqueStorage U),
      All.deleteEach um m.counter es (Sto.unique (V := V) u) = .ok (.unique u) := by
    intro es u
    induction es with
    | nil => rfl
    | cons e es ih => simp only [All.deleteEach, Sto.delete, bind, Except.bind]; exact ih
  have huser : ∀ (es : List EId) (x : X), All.deleteEach um m.counter es (Sto.user (V := V) (U := U) x) =
      .ok (.user (es.foldl (fun x e => um.delete e m.counter x) x)) := by
    intro es
    induction es with
    | nil => intro x; rfl
    | cons e es ih => intro x; simp only [All.deleteEach, Sto.delete, bind, Except.bind]; exact ih _
  obtain ⟨l', h1, h2, h3, h4, h5, h6⟩ := loop_ok (f := fun _ => All.deleteEach um m.counter es) (r := .ok) (q := id)
    (z := fun _ x => es.foldl (fun x e => um.delete e m.counter x) x)
    ⟨fun k s s' hh => hcomp es s s' hh, fun k E E' hh => by cases hh; exact hents es E, fun _ u => huniq es u,
      fun _ x => huser es x⟩ id m.stos c' hc (fun _ _ => rfl)
  refine ⟨⟨l', m.counter + 1⟩, ?_, ⟨h2, ?_, ?_⟩, ⟨h4, h5, h6⟩⟩
  · unfold All.bulkStrip; simp only [h1, bind, Except.bind]
  · show ents l' = _
    rw [h3, hs.ents]; rfl
  · show m.counter + 1 = w.counter + 1
    rw [hs.clock]

/-- C103, `retain_storage_by_id`. -/
theorem C103_retain_storage (hs : Shows m w) {e : EId} {keep : List Nat} (hw : w.retainStorageById e keep = .ok w') :
    ∃ m', m.retainStorageById um e keep = .ok m' ∧ Shows m' w' ∧
      Beside id (fun k x => if keep.contains k then x else um.delete e m.counter x) m m' := by
  unfold World.retainStorageById at hw
  simp only [bind, Except.bind] at hw
  split at hw
  · cases hw
  rename_i c' hc
  cases hw
  rw [← hs.comps, ← hs.clock] at hc
  obtain ⟨l', h1, h2, h3, h4, h5, h6⟩ := loop_ok
    (f := fun k s => if keep.contains k then .ok s else Sto.delete um e m.counter s) (r := .ok) (q := id)
    (z := fun k x => if keep.contains k then x else um.delete e m.counter x)
    ⟨fun k s s' hh => by
        cases hk : keep.contains k
        · simp only [hk, Bool.false_eq_true, if_false] at hh ⊢
          simp only [Sto.delete, hh, bind, Except.bind]
        · simp only [hk, if_true] at hh ⊢
          cases hh; rfl,
      fun k E E' hh => by cases hh; split <;> rfl, fun k u => by split <;> rfl,
      fun k x => by cases keep.contains k <;> rfl⟩ id m.stos c' hc (fun _ _ => rfl)
  refine ⟨⟨l', m.counter + 1⟩, ?_, ⟨h2, ?_, ?_⟩, ⟨h4, h5, h6⟩⟩
  · unfold All.retainStorageById; simp only [h1, bind, Except.bind]
  · show ents l' = _
    rw [h3, hs.ents]; rfl
  · show m.counter + 1 = w.counter + 1
    rw [hs.clock]

/-- C103, `clear`: the uniques stay, wherever the entities are in the order of the map. -/
theorem C103_clear (hs : Shows m w) (hw : w.clear = .ok w') :
    ∃ m', m.clear um = .ok m' ∧ Shows m' w' ∧ Beside id (fun _ => um.clear m.counter) m m' := by
  unfold World.clear at hw
  simp only [bind, Except.bind] at hw
  split at hw
  · cases hw
  rename_i E' hE
  split at hw
  · cases hw
  rename_i c' hc
  cases hw
  rw [← hs.comps, ← hs.clock] at hc
  obtain ⟨l', h1, h2, h3, h4, h5, h6⟩ := loop_ok (f := fun _ => Sto.clear um m.counter) (r := Entities.clear) (q := id)
    (z := fun _ => um.clear m.counter)
    ⟨fun k s s' hh => by simp only [Sto.clear, hh, bind, Except.bind], fun k E E' hh => by simp only [Sto.clear, hh, bind, Except.bind],
      fun _ _ => rfl, fun _ _ => rfl⟩ (fun _ => E') m.stos c' hc (fun E hm => by
        rw [hs.ents] at hm
        rw [List.mem_singleton.1 hm, hE])
  refine ⟨⟨l', m.counter + 1⟩, ?_, ⟨h2, ?_, ?_⟩, ⟨h4, h5, h6⟩⟩
  · unfold All.clear; simp only [h1, bind, Except.bind]
  · show ents l' = _
    rw [h3, hs.ents]; rfl
  · show m.counter + 1 = w.counter + 1
    rw [hs.clock]

theorem moveLoop_ok (fl : Flags) (src dst : EId) (now nowO : Nat) : ∀ (l : List (Nat × Sto V U X)) (o : World V)
    (c' : List (Nat × SparseSet V)) (o' : World V), World.moveLoop fl src dst now nowO (comps l) o = .ok (c', o') →
    ∃ l', All.moveLoop fl src dst now nowO l o = .ok (l', o') ∧ comps l' = c' ∧ ents l' = ents l ∧ uniques l' = uniques l ∧
      users l' = users l ∧ shape l' = shape l
  | [], o, c', o', hc => by
    cases hc
    exact ⟨[], rfl, rfl, rfl, rfl, rfl, rfl⟩
  | (k, .component s) :: l, o, c', o', hc => by
    have hc : World.moveLoop fl src dst now nowO ((k, s) :: comps l) o = .ok (c', o') := hc
    unfold World.moveLoop at hc
    simp only [bind, Except.bind] at hc
    split at hc
    · cases hc
    rename_i p hp
    obtain ⟨c, s'⟩ := p
    dsimp only at hc
    split at hc
    · cases hc
    rename_i o1 ho1
    split at hc
    · cases hc
    rename_i p2 hp2
    obtain ⟨c2, o2⟩ := p2
    cases hc
    obtain ⟨l', h1, h2, h3, h4, h5, h6⟩ := moveLoop_ok fl src dst now nowO l o1 c2 o2 hp2
    refine ⟨(k, .component s') :: l', ?_, ?_, h3, h4, h5, ?_⟩
    · simp only [All.moveLoop, hp, ho1, h1, bind, Except.bind]
    · show (k, s') :: comps l' = _
      rw [h2]
    · exact List.cons_eq_cons.2 ⟨rfl, h6⟩
  | (k, .entities E) :: l, o, c', o', hc => by
    obtain ⟨l', h1, h2, h3, h4, h5, h6⟩ := moveLoop_ok fl src dst now nowO l o c' o' hc
    refine ⟨(k, .entities E) :: l', ?_, h2, ?_, h4, h5, ?_⟩
    · simp only [All.moveLoop, h1, bind, Except.bind]
    · show E :: ents l' = E :: ents l
      rw [h3]
    · exact List.cons_eq_cons.2 ⟨rfl, h6⟩
  | (k, .unique u) :: l, o, c', o', hc => by
    obtain ⟨l', h1, h2, h3, h4, h5, h6⟩ := moveLoop_ok fl src dst now nowO l o c' o' hc
    refine ⟨(k, .unique u) :: l', ?_, h2, h3, ?_, h5, ?_⟩
    · simp only [All.moveLoop, h1, bind, Except.bind]
    · show (k, u) :: uniques l' = (k, u) :: uniques l
      rw [h4]
    · exact List.cons_eq_cons.2 ⟨rfl, h6⟩
  | (k, .user x) :: l, o, c', o', hc => by
    obtain ⟨l', h1, h2, h3, h4, h5, h6⟩ := moveLoop_ok fl src dst now nowO l o c' o' hc
    refine ⟨(k, .user x) :: l', ?_, h2, h3, h4, ?_, ?_⟩
    · simp only [All.moveLoop, h1, bind, Except.bind]
    · show (k, x) :: users l' = (k, x) :: users l
      rw [h5]
    · exact List.cons_eq_cons.2 ⟨rfl, h6⟩

/-- C103, `move_entity`: the uniques of the world the entity leaves stay, also when the call panics. -/
theorem C103_move_entity {fl : Flags} (hs : Shows m w) {o o' : World V} {e : EId} {r : Ended}
    (hw : w.moveEntity fl o e = .ok (r, w', o')) :
    ∃ m', m.moveEntity fl o e = .ok (r, m', o') ∧ Shows m' w' ∧ uniques m'.stos = uniques m.stos ∧ users m'.stos = users m.stos := by
  unfold World.moveEntity at hw
  simp only [bind, Except.bind] at hw
  split at hw
  · cases hw
  rename_i p hp
  obtain ⟨b, E'⟩ := p
  obtain ⟨l1, h1, h2, h3, h4, h5, h6⟩ := onEntities_ok (g := fun E => E.deleteUnchecked e) hp m.stos hs.ents
  cases b with
  | false =>
    simp only [Bool.false_eq_true, if_false] at hw
    cases hw
    refine ⟨⟨l1, m.counter + 1⟩, ?_, ⟨by rw [h2, hs.comps]; rfl, h3, congrArg (· + 1) hs.clock⟩, h4, h5⟩
    unfold All.moveEntity
    simp only [h1, bind, Except.bind, Bool.false_eq_true, if_false]
  | true =>
    simp only [if_true] at hw
    split at hw
    · cases hw
    rename_i p2 hp2
    obtain ⟨b', EO⟩ := p2
    cases b' with
    | false =>
      simp only [Bool.false_eq_true, if_false] at hw
      cases hw
      refine ⟨⟨l1, m.counter + 1⟩, ?_, ⟨by rw [h2, hs.comps]; rfl, h3, congrArg (· + 1) hs.clock⟩, h4, h5⟩
      unfold All.moveEntity
      simp only [h1, hp2, bind, Except.bind, Bool.false_eq_true, if_false, if_true]
    | true =>
      simp only [if_true] at hw
      split at hw
      · cases hw
      rename_i p3 hp3
      obtain ⟨c', o2⟩ := p3
      cases hw
      rw [← hs.comps, ← h2, ← hs.clock] at hp3
      obtain ⟨l', g1, g2, g3, g4, g5, _⟩ := moveLoop_ok fl e e m.counter o.counter l1 _ _ _ hp3
      refine ⟨⟨l', m.counter + 1⟩, ?_, ⟨g2, g3.trans h3, congrArg (· + 1) hs.clock⟩, g4.trans h4, g5.trans h5⟩
      unfold All.moveEntity
      simp only [h1, hp2, g1, bind, Except.bind, if_true]

/-- C103, `move_components`. -/
theorem C103_move_components {fl : Flags} (hs : Shows m w) {o o' : World V} {src dst : EId} {r : Ended}
    (hw : w.moveComponents fl o src dst = .ok (r, w', o')) :
    ∃ m', m.moveComponents fl o src dst = .ok (r, m', o') ∧ Shows m' w' ∧ uniques m'.stos = uniques m.stos ∧
      users m'.stos = users m.stos := by
  obtain ⟨l1, h1, h2, h3, h4, h5, h6⟩ := onEntities_ok (g := fun E => .ok (E.isAlive src, E)) rfl m.stos hs.ents
  unfold World.moveComponents at hw
  unfold All.moveComponents
  simp only [h1, bind, Except.bind]
  cases ha : w.ents.isAlive src with
  | false =>
    rw [ha] at hw
    simp only [Bool.false_eq_true, if_false] at hw ⊢
    cases hw
    exact ⟨_, rfl, ⟨by show comps l1 = _; rw [h2, hs.comps]; rfl, h3, congrArg (· + 1) hs.clock⟩, h4, h5⟩
  | true =>
    rw [ha] at hw
    simp only [if_true] at hw ⊢
    cases hd : o.ents.isAlive dst with
    | false =>
      rw [hd] at hw
      simp only [Bool.false_eq_true, if_false] at hw ⊢
      cases hw
      exact ⟨_, rfl, ⟨by show comps l1 = _; rw [h2, hs.comps]; rfl, h3, congrArg (· + 1) hs.clock⟩, h4, h5⟩
    | true =>
      rw [hd] at hw
      simp only [if_true, bind, Except.bind] at hw ⊢
      split at hw
      · cases hw
      rename_i p3 hp3
      obtain ⟨c', o2⟩ := p3
      cases hw
      rw [← hs.comps, ← h2, ← hs.clock] at hp3
      obtain ⟨l', g1, g2, g3, g4, g5, _⟩ := moveLoop_ok fl src dst m.counter o.counter l1 _ _ _ hp3
      simp only [g1]
      exact ⟨_, rfl, ⟨g2, g3.trans h3, congrArg (· + 1) hs.clock⟩, g4.trans h4, g5.trans h5⟩

theorem map_ok {f : Sto V U X → Sto V U X} {g : SparseSet V → SparseSet V} {q : UniqueStorage U → UniqueStorage U} {z : X → X}
    (h1 : ∀ s, f (.component s) = .component (g s)) (h2 : ∀ E, f (.entities E) = .entities E)
    (h3 : ∀ u, f (.unique u) = .unique (q u)) (h4 : ∀ x, f (.user x) = .user (z x)) (l : List (Nat × Sto V U X)) :
    comps (l.map fun x => (x.1, f x.2)) = (comps l).map (fun x => (x.1, g x.2)) ∧
    ents (l.map fun x => (x.1, f x.2)) = ents l ∧
    uniques (l.map fun x => (x.1, f x.2)) = (uniques l).map (fun x => (x.1, q x.2)) ∧
    users (l.map fun x => (x.1, f x.2)) = (users l).map (fun x => (x.1, z x.2)) ∧
    shape (l.map fun x => (x.1, f x.2)) = shape l := by
  induction l with
  | nil => exact ⟨rfl, rfl, rfl, rfl, rfl⟩
  | cons x l ih =>
    obtain ⟨k, s⟩ := x
    obtain ⟨i1, i2, i3, i4, i5⟩ := ih
    have hh : shape (((k, s) :: l).map fun x => (x.1, f x.2)) = shape ((k, s) :: l) := by
      refine List.cons_eq_cons.2 ⟨?_, i5⟩
      cases s <;> simp only [h1, h2, h3, h4, Sto.kind]
    refine and_assoc.1 (and_assoc.1 (and_assoc.1 ⟨?_, hh⟩))
    unfold comps ents uniques users at *
    cases s with
    | component s => simp only [List.map_cons, List.filterMap_cons, h1, i1, i2, i3, i4, and_self]
    | entities E => simp only [List.map_cons, List.filterMap_cons, h2, i1, i2, i3, i4, and_self]
    | unique u => simp only [List.map_cons, List.filterMap_cons, h3, i1, i2, i3, i4, and_self]
    | user y => simp only [List.map_cons, List.filterMap_cons, h4, i1, i2, i3, i4, and_self]

/-- C103, the clears of the world: the clears of insertions and modifications set the time of insertion and modification of every
unique to that of the call, those of removals and deletions do not touch uniques. -/
theorem C103_world_clears (hs : Shows m w) (t : Nat) :
    (Shows (m.clearAllInserted um) w.clearAllInserted ∧
      Beside (fun u => { u with insert := m.counter }) (fun _ => um.clearInserted m.counter) m (m.clearAllInserted um)) ∧
    (Shows (m.clearAllModified um) w.clearAllModified ∧
      Beside (fun u => { u with modification := m.counter }) (fun _ => um.clearModified m.counter) m (m.clearAllModified um)) ∧
    (Shows (m.clearAllInsertedAndModified um) w.clearAllInsertedAndModified ∧
      Beside (fun u => { u with insert := m.counter, modification := m.counter })
        (fun _ x => um.clearModified m.counter (um.clearInserted m.counter x)) m (m.clearAllInsertedAndModified um)) ∧
    (Shows (m.clearAllRemovedAndDeleted um) w.clearAllRemovedAndDeleted ∧
      Beside id (fun _ => um.clearLogs) m (m.clearAllRemovedAndDeleted um)) ∧
    (Shows (m.clearAllRemovedAndDeletedOlderThan um t) (w.clearAllRemovedAndDeletedOlderThan t) ∧
      Beside id (fun _ => um.clearLogsOlder t) m (m.clearAllRemovedAndDeletedOlderThan um t)) := by
  obtain ⟨a1, a2, a3, a4, a5⟩ := map_ok (f := Sto.clearAllInserted um m.counter) (g := fun s : SparseSet V => s.clearAllInserted m.counter)
    (q := fun u : UniqueStorage U => u.clearAllInserted m.counter) (z := um.clearInserted m.counter) (fun _ => rfl) (fun _ => rfl)
    (fun _ => rfl) (fun _ => rfl) m.stos
  obtain ⟨b1, b2, b3, b4, b5⟩ := map_ok (f := Sto.clearAllModified um m.counter) (g := fun s : SparseSet V => s.clearAllModified m.counter)
    (q := fun u : UniqueStorage U => u.clearAllModified m.counter) (z := um.clearModified m.counter) (fun _ => rfl) (fun _ => rfl)
    (fun _ => rfl) (fun _ => rfl) m.stos
  obtain ⟨c1, c2, c3, c4, c5⟩ := map_ok (f := fun s => (Sto.clearAllInserted um m.counter s).clearAllModified um m.counter)
    (g := fun s : SparseSet V => (s.clearAllInserted m.counter).clearAllModified m.counter)
    (q := fun u : UniqueStorage U => (u.clearAllInserted m.counter).clearAllModified m.counter)
    (z := fun x => um.clearModified m.counter (um.clearInserted m.counter x)) (fun _ => rfl) (fun _ => rfl)
    (fun _ => rfl) (fun _ => rfl) m.stos
  obtain ⟨d1, d2, d3, d4, d5⟩ := map_ok (f := Sto.clearLogs um) (g := fun s : SparseSet V => s.storageClearAllRemovedAndDeleted)
    (q := (id : UniqueStorage U → UniqueStorage U)) (z := um.clearLogs) (fun _ => rfl) (fun _ => rfl)
    (fun _ => rfl) (fun _ => rfl) m.stos
  obtain ⟨e1, e2, e3, e4, e5⟩ := map_ok (f := Sto.clearLogsOlder um t) (g := fun s : SparseSet V => s.clearAllRemovedAndDeletedOlderThan t)
    (q := (id : UniqueStorage U → UniqueStorage U)) (z := um.clearLogsOlder t) (fun _ => rfl) (fun _ => rfl)
    (fun _ => rfl) (fun _ => rfl) m.stos
  refine ⟨⟨⟨?_, a2.trans hs.ents, hs.clock⟩, a3, a4, a5⟩, ⟨⟨?_, b2.trans hs.ents, hs.clock⟩, b3, b4, b5⟩,
    ⟨⟨?_, c2.trans hs.ents, hs.clock⟩, c3, c4, c5⟩, ⟨⟨?_, d2.trans hs.ents, hs.clock⟩, d3, d4, d5⟩,
    ⟨⟨?_, e2.trans hs.ents, hs.clock⟩, e3, e4, e5⟩⟩
  · refine a1.trans ?_; rw [hs.comps, hs.clock]; rfl
  · refine b1.trans ?_; rw [hs.comps, hs.clock]; rfl
  · refine c1.trans ?_; rw [hs.comps, hs.clock]; rfl
  · refine d1.trans ?_; rw [hs.comps]; rfl
  · refine e1.trans ?_; rw [hs.comps]; rfl

theorem call_ok (hs : Shows m w) (c : Call) (hw : c.onWorld w = .ok w') :
    ∃ m', c.onAll um m = .ok m' ∧ Shows m' w' ∧ uniques m'.stos = uniques m.stos ∧
      shape m'.stos = shape m.stos := by
  cases c with
  | strip e =>
    obtain ⟨m', h1, h2, h3⟩ := C103_strip (um := um) hs hw
    exact ⟨m', h1, h2, h3.uniques.trans (map_beside _), h3.ids⟩
  | bulkStrip es =>
    obtain ⟨m', h1, h2, h3⟩ := C103_bulk_strip (um := um) hs hw
    exact ⟨m', h1, h2, h3.uniques.trans (map_beside _), h3.ids⟩
  | retainStorage e keep =>
    obtain ⟨m', h1, h2, h3⟩ := C103_retain_storage (um := um) hs hw
    exact ⟨m', h1, h2, h3.uniques.trans (map_beside _), h3.ids⟩
  | deleteEntity e =>
    have hw : (w.deleteEntity e).map Prod.snd = .ok w' := hw
    cases hd : w.deleteEntity e with
    | error x => rw [hd] at hw; cases hw
    | ok p =>
      obtain ⟨b, w2⟩ := p
      rw [hd] at hw
      cases hw
      obtain ⟨m', h1, h2, h3⟩ := C103_delete_entity (um := um) hs hd
      refine ⟨m', ?_, h2, h3.uniques.trans (map_beside _), h3.ids⟩
      show (m.deleteEntity um e).map Prod.snd = _
      rw [h1]; rfl
  | clear =>
    obtain ⟨m', h1, h2, h3⟩ := C103_clear (um := um) hs hw
    exact ⟨m', h1, h2, h3.uniques.trans (map_beside _), h3.ids⟩
  | clearLogs =>
    cases hw
    obtain ⟨_, _, _, ⟨h2, h3⟩, _⟩ := C103_world_clears (um := um) hs 0
    exact ⟨_, rfl, h2, h3.uniques.trans (map_beside _), h3.ids⟩
  | clearLogsOlder t =>
    cases hw
    obtain ⟨_, _, _, _, ⟨h2, h3⟩⟩ := C103_world_clears (um := um) hs t
    exact ⟨_, rfl, h2, h3.uniques.trans (map_beside _), h3.ids⟩

/-- C103, whole programs: whatever calls on entities are made, in any order, every unique is still there with the value and the
timestamps it had, no storage comes or goes, and entities and components are what the other theorems say. -/
theorem C103_program (um : User X) : ∀ (cs : List Call) (m : All V U X) (w w' : World V), Shows m w →
    cs.foldlM Call.onWorld w = .ok w' →
    ∃ m', cs.foldlM (Call.onAll um) m = .ok m' ∧ Shows m' w' ∧ uniques m'.stos = uniques m.stos ∧
      shape m'.stos = shape m.stos
  | [], m, w, w', hs, hw => by
    cases hw
    exact ⟨m, rfl, hs, rfl, rfl⟩
  | c :: cs, m, w, w', hs, hw => by
    rw [List.foldlM_cons] at hw
    simp only [bind, Except.bind] at hw
    split at hw
    · cases hw
    rename_i w1 hw1
    obtain ⟨m1, h1, h2, h3, h4⟩ := call_ok (um := um) hs c hw1
    obtain ⟨m', g1, g2, g3, g4⟩ := C103_program um cs m1 w1 w' h2 hw
    refine ⟨m', ?_, g2, g3.trans h3, g4.trans h4⟩
    rw [List.foldlM_cons]
    simp only [bind, Except.bind, h1]
    exact g1

/-- Storages of the user that count the calls they get. -/
def counting : User Nat :=
  { delete := fun _ _ n => n + 1, clear := fun _ n => n + 100, clearInserted := fun _ n => n, clearModified := fun _ n => n,
    clearLogs := fun n => n, clearLogsOlder := fun _ n => n }

/-- The demo world with a unique in front, the entities between its storages and a storage of the user behind. -/
def mixedDemo : All Nat Nat Nat :=
  { stos := (70, .unique { value := 7, insert := 1, modification := 2, lastInsert := 0, lastModification := 0, canClone := false }) ::
      ((WSpec.demo.stos.take 1).map (fun x => (x.1, .component x.2)) ++ (90, .entities WSpec.demo.ents) ::
        (WSpec.demo.stos.drop 1).map (fun x => (x.1, .component x.2)) ++ [(80, .user 0)]),
    counter := WSpec.demo.counter }

example : Shows mixedDemo WSpec.demo := ⟨rfl, rfl, rfl⟩

/-- Two entities are deleted and everything is cleared: the unique still holds 7, the user's storage got two deletes and a clear. -/
example : ∃ m', [Call.deleteEntity ⟨0, 0⟩, .strip ⟨1, 0⟩, .clear].foldlM (Call.onAll counting) mixedDemo = .ok m' ∧
    (uniques m'.stos).map (fun x => (x.1, x.2.value)) = [(70, 7)] ∧ users m'.stos = [(80, 102)] ∧
    (ents m'.stos).map (fun E => E.isAlive ⟨1, 0⟩) = [false] := ⟨_, rfl, rfl, rfl, rfl⟩

example : ∃ w', [Call.deleteEntity ⟨0, 0⟩, .strip ⟨1, 0⟩, .clear].foldlM Call.onWorld WSpec.demo = .ok w' := ⟨_, rfl⟩

/-- `move_entity` out of the mixed map. -/
example : ∃ r w' o', WSpec.demo.moveEntity WSpec.demoFlags World.new ⟨0, 0⟩ = .ok (r, w', o') := ⟨_, _, _, rfl⟩

end Verif.Mix

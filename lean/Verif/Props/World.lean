import Verif.Lemmas.WorldRetain

/-!
# What the methods of a world do to its entities and components (C40 - C47)

`w.isAlive e` and `w.get k e` are what a user observes: is `e` alive, and `world.get::<&T>(e)` for the
component type number `k`. `WSpec.Reach fl w h` are the worlds made through the API and `issued h` the ids
such a world handed out (`Verif/Spec/World.lean`). Ids have a generation below 65535: the generation 65535
is kept for dead slots and no id of that generation is ever handed out.
-/
namespace Verif
open EntSpec (Event issued)
open StoSpec (Valid Call recordingRef)
open WSpec (Reach Listed FreeFor Fits)
open World
variable {V : Type} {fl : Flags}

/-- `x` is as alive as before, with the same components. -/
def WSpec.Same (w w' : World V) (x : EId) : Prop :=
  w'.isAlive x = w.isAlive x ∧ ∀ k, w'.get k x = w.get k x
open WSpec (Same)

/-! ## C40: `delete_entity` -/

/-- C40: the entity is dead afterwards and has no component left; all the others are unchanged; with a dead
id the whole world is unchanged. Missing: entities of generation 65533 and 65534, see
`C40_exhausted_fails`. -/
theorem C40_delete_entity_partial {w : World V} {h : List Event} (hr : Reach fl w h) (e : EId)
    (hg : w.isAlive e = true → e.gen < 65533) :
    ∃ w', w.deleteEntity e = .ok (w.isAlive e, w') ∧
      w'.isAlive e = false ∧
      (w.isAlive e = true → ∀ k, w'.get k e = .ok none) ∧
      (∀ x, x ≠ e → x.gen < 65535 → Same w w' x) ∧
      (w.isAlive e = false → w' = w) := by
  obtain ⟨A, Q, hok⟩ := reach_ok hr
  cases ha : w.isAlive e with
  | false =>
    refine ⟨w, ?_, ha, (fun h => by cases h), fun _ _ _ => ⟨rfl, fun _ => rfl⟩, fun _ => rfl⟩
    unfold World.deleteEntity
    rw [Entities.deleteUnchecked_dead ha]
    rfl
  | true =>
    have hv := hok.ent.valid ha
    obtain ⟨w', A', Q', h1, h2, h3, h4, h5, h6⟩ := hok.deleteEntity hv
    rw [show w.ents.isAlive e = true from ha] at h1
    refine ⟨w', h1, h4 (hg ha), ?_, ?_, (fun h => by cases h)⟩
    · intro _ k
      rw [h2.get k hv.1, h6, if_pos rfl]
    · intro x hx hxg
      refine ⟨h3 x hx, fun k => ?_⟩
      rw [h2.get k hxg, hok.get k hxg, h6, if_neg hx]

/-- A world to show that the hypotheses are met: three entities, two component types. -/
def WSpec.demoFlags : Flags := fun _ => (false, false, false, false)
open WSpec (demoFlags)

/-- Entities `0` (components 10 and 20), `1` (component 11), `2` (component 22). -/
def WSpec.demo : World Nat :=
  match (World.new : World Nat).addEntity demoFlags [(0, some 10), (1, some 20)] with
  | .ok (_, _, w1) =>
    match w1.addEntity demoFlags [(0, some 11)] with
    | .ok (_, _, w2) =>
      match w2.addEntity demoFlags [(1, some 22)] with
      | .ok (_, _, w3) => w3
      | .error _ => w2
    | .error _ => w1
  | .error _ => World.new
open WSpec (demo)

theorem WSpec.demo_reach :
    Reach demoFlags demo [.added ⟨0, 0⟩, .added ⟨1, 0⟩, .added ⟨2, 0⟩] :=
  .addEntity (cs := [(1, some 22)]) (r := .returned) (.addEntity (cs := [(0, some 11)]) (r := .returned)
    (.addEntity (cs := [(0, some 10), (1, some 20)]) (r := .returned) (.init false) rfl (by unfold Fits; decide))
    rfl (by unfold Fits; decide)) rfl (by unfold Fits; decide)
open WSpec (demo_reach)

example : Reach demoFlags demo [.added ⟨0, 0⟩, .added ⟨1, 0⟩, .added ⟨2, 0⟩] ∧
    demo.isAlive ⟨0, 0⟩ = true ∧ demo.get 0 ⟨0, 0⟩ = .ok (some 10) ∧ demo.get 1 ⟨0, 0⟩ = .ok (some 20) ∧
    demo.get 0 ⟨1, 0⟩ = .ok (some 11) ∧ demo.get 1 ⟨1, 0⟩ = .ok none ∧ demo.get 1 ⟨2, 0⟩ = .ok (some 22) :=
  ⟨demo_reach, rfl, rfl, rfl, rfl, rfl, rfl⟩

example : ∃ w', demo.deleteEntity ⟨0, 0⟩ = .ok (true, w') ∧ w'.isAlive ⟨0, 0⟩ = false ∧
    w'.get 0 ⟨0, 0⟩ = .ok none ∧ w'.get 0 ⟨1, 0⟩ = .ok (some 11) :=
  ⟨_, rfl, rfl, rfl, rfl⟩

/-- C40 is false of an entity of generation 65533, made here by `spawn`: `delete_entity` returns `true`
and the entity stays alive. -/
theorem C40_exhausted_fails :
    ∃ (w w' : World Nat) (h : List Event), Reach demoFlags w h ∧ w.isAlive ⟨0, 65533⟩ = true ∧
      w.deleteEntity ⟨0, 65533⟩ = .ok (true, w') ∧ w'.isAlive ⟨0, 65533⟩ = true :=
  ⟨_, _, _, .spawn (e := ⟨0, 65533⟩) (b := true) (.init false) (by decide)
    (fun x hx => by simp [World.isAlive, Entities.isAlive, World.new, Entities.new] at hx) rfl (by unfold Fits; decide),
    rfl, rfl, rfl⟩

/-! ## C41: components belong to alive entities -/

/-- C41: in a world made through the API every component belongs to an alive entity. Missing: a `clear` with
an entity of generation 65533 or 65534 (it corrupts the entities, see `C06_fails`), and the calls that
do leave orphans: `C41_spawn_fails`, `C41_move_refused_fails`, `C41_clone_storages_fails`. -/
theorem C41_components_belong_to_alive_entities_partial {w : World V} {h : List Event} (hr : Reach fl w h)
    (k : Nat) (e : EId) (he : e.gen < 65535) (v : V) (hg : w.get k e = .ok (some v)) :
    w.isAlive e = true := by
  obtain ⟨A, Q, hok⟩ := reach_ok hr
  rw [hok.get k he] at hg
  injection hg with hg
  exact hok.look_alive hg

example : ∃ w' h', Reach demoFlags w' h' ∧ w'.isAlive ⟨1, 0⟩ = false ∧ w'.get 0 ⟨1, 0⟩ = .ok none ∧
    w'.get 1 ⟨2, 0⟩ = .ok (some 22) ∧ w'.isAlive ⟨2, 0⟩ = true :=
  ⟨_, _, .deleteEntity (e := ⟨1, 0⟩) (b := true) demo_reach (by decide) rfl, rfl, rfl, rfl, rfl⟩

/-- `get` never fails on a world made through the API. -/
theorem C41_get_total {w : World V} {h : List Event} (hr : Reach fl w h) (k : Nat) (e : EId)
    (he : e.gen < 65535) : ∃ c, w.get k e = .ok c := by
  obtain ⟨A, Q, hok⟩ := reach_ok hr
  exact ⟨_, hok.get k he⟩

/-- `spawn` is left out of C41 when another entity is alive at that index: it returns `true`, the other
entity is dead afterwards and its components stay behind. -/
theorem C41_spawn_fails :
    ∃ (w w' : World Nat) (h : List Event), Reach demoFlags w h ∧ w.isAlive ⟨0, 0⟩ = true ∧
      w.spawn ⟨0, 1⟩ = .ok (true, w') ∧ w'.isAlive ⟨0, 0⟩ = false ∧ w'.get 0 ⟨0, 0⟩ = .ok (some 10) :=
  ⟨_, _, _, demo_reach, rfl, rfl, rfl, rfl⟩

/-- `move_entity` deletes the entity before it finds that the other world refuses it: after the panic the
components of the dead entity are still there. Here the other world has a newer entity at that index. -/
theorem C41_move_refused_fails :
    ∃ (o w' o' : World Nat) (ho : List Event), Reach demoFlags demo [.added ⟨0, 0⟩, .added ⟨1, 0⟩, .added ⟨2, 0⟩] ∧
      Reach demoFlags o ho ∧ demo.moveEntity demoFlags o ⟨0, 0⟩ = .ok (.panicked, w', o') ∧
      w'.isAlive ⟨0, 0⟩ = false ∧ w'.get 0 ⟨0, 0⟩ = .ok (some 10) :=
  ⟨_, _, _, _, demo_reach, .spawn (e := ⟨0, 5⟩) (b := true) (.init false) (by decide)
    (fun x hx => by simp [World.isAlive, Entities.isAlive, World.new, Entities.new] at hx) rfl (by unfold Fits; decide),
    rfl, rfl, rfl⟩

/-- `clone_storages_to` replaces the entities of the other world but keeps its storages that the source
cannot clone: their components now belong to dead entities. -/
theorem C41_clone_storages_fails :
    ∃ o' : World Nat, o' = (World.new : World Nat).cloneStoragesTo demoFlags (fun _ v => v) demo ∧
      o'.isAlive ⟨0, 0⟩ = false ∧ o'.get 0 ⟨0, 0⟩ = .ok (some 10) :=
  ⟨_, rfl, rfl, rfl⟩

/-! ## C42: `strip`, `bulk_strip`, `retain_storage`, `retain` -/

/-- An id this world handed out can be used with its storages. -/
theorem issued_valid {w : World V} {A Q} {h : List Event} (hok : Ok w A Q (issued h)) {e : EId}
    (he : e ∈ issued h) : Valid e := by
  obtain ⟨g, h1, h2, _⟩ := hok.ent.bnd e he
  have h3 := hok.ent.gens _ _ h1
  have h4 := Entities.genAt_lt h1
  have h5 := hok.ent.inv.cap
  have h6 : EId.maxIndex < EId.INDEX_MASK := by decide
  exact ⟨by omega, by omega⟩

/-- For an id of this world, "not newer, at the same index" is the id itself or has no component. -/
theorem look_issued {w : World V} {A Q} {h : List Event} (hok : Ok w A Q (issued h)) {e x : EId}
    (he : e ∈ issued h) (k : Nat) (hx : x ≠ e) (hi : x.idx = e.idx) (hle : x.gen ≤ e.gen) :
    look A k x = none := by
  cases hl : look A k x with
  | none => rfl
  | some v =>
    exfalso
    have := hok.ent.issued_le he (hok.look_alive hl) hi
    apply hx
    cases x; cases e
    simp only [EId.mk.injEq]
    exact ⟨hi, Nat.le_antisymm hle this⟩

/-- C42, `strip`: the entity loses all its components and stays as alive as it was; all the others are
unchanged. `e` is an id this world handed out, dead or alive. -/
theorem C42_strip {w : World V} {h : List Event} (hr : Reach fl w h) {e : EId} (he : e ∈ issued h) :
    ∃ w', w.strip e = .ok w' ∧ (∀ x, w'.isAlive x = w.isAlive x) ∧
      (∀ k, w'.get k e = .ok none) ∧
      ∀ k x, x ≠ e → x.gen < 65535 → w'.get k x = w.get k x := by
  obtain ⟨A, Q, hok⟩ := reach_ok hr
  have hv := issued_valid hok he
  obtain ⟨w', A', h1, h2, _, h3, h4⟩ := hok.strip hv
  refine ⟨w', h1, fun x => ?_, ?_, ?_⟩
  · unfold World.isAlive; rw [h2]
  · intro k
    rw [h3.get k hv.1, h4, if_pos ⟨rfl, Nat.le_refl _⟩]
  · intro k x hx hxg
    rw [h3.get k hxg, hok.get k hxg, h4]
    split
    · rename_i hc
      rw [look_issued hok he k hx hc.1 hc.2]
    · rfl

example : ∃ w', demo.strip ⟨0, 0⟩ = .ok w' ∧ w'.isAlive ⟨0, 0⟩ = true ∧ w'.get 0 ⟨0, 0⟩ = .ok none ∧
    w'.get 0 ⟨1, 0⟩ = .ok (some 11) :=
  ⟨_, rfl, rfl, rfl, rfl⟩
example : (⟨0, 0⟩ : EId) ∈ issued [Event.added ⟨0, 0⟩, .added ⟨1, 0⟩, .added ⟨2, 0⟩] := by decide

/-- C42, `bulk_strip` and `par_strip`. -/
theorem C42_bulk_strip {w : World V} {h : List Event} (hr : Reach fl w h) {es : List EId}
    (he : ∀ e ∈ es, e ∈ issued h) :
    ∃ w', w.bulkStrip es = .ok w' ∧ (∀ x, w'.isAlive x = w.isAlive x) ∧
      (∀ k, ∀ e ∈ es, w'.get k e = .ok none) ∧
      ∀ k x, x ∉ es → x.gen < 65535 → w'.get k x = w.get k x := by
  obtain ⟨A, Q, hok⟩ := reach_ok hr
  have hv : ∀ e ∈ es, Valid e := fun e h => issued_valid hok (he e h)
  obtain ⟨w', A', h1, h2, h3, h4⟩ := hok.bulkStrip hv
  refine ⟨w', h1, fun x => ?_, ?_, ?_⟩
  · unfold World.isAlive; rw [h2]
  · intro k e hm
    rw [h3.get k (hv e hm).1, h4, if_pos ⟨e, hm, rfl, Nat.le_refl _⟩]
  · intro k x hx hxg
    rw [h3.get k hxg, hok.get k hxg, h4]
    split
    · rename_i hc
      obtain ⟨e, hm, hi, hle⟩ := hc
      rw [look_issued hok (he e hm) k (fun h => hx (by rw [h]; exact hm)) hi hle]
    · rfl

example : ∃ w', demo.bulkStrip [⟨0, 0⟩, ⟨1, 0⟩] = .ok w' ∧ w'.isAlive ⟨0, 0⟩ = true ∧
    w'.get 0 ⟨1, 0⟩ = .ok none ∧ w'.get 1 ⟨2, 0⟩ = .ok (some 22) :=
  ⟨_, rfl, rfl, rfl, rfl⟩

/-- C42, `retain_storage` of at least one type (and `retain_storage_by_id`): the entity loses exactly its
components of the types not listed. Missing, because false: no type listed
(`C42_retain_nothing_fails`). -/
theorem C42_retain_storage_partial {w : World V} {h : List Event} (hr : Reach fl w h) {e : EId}
    (he : e ∈ issued h) {keep : List Nat} (hk : keep ≠ []) :
    ∃ w', w.retainStorage e keep = .ok w' ∧ w.retainStorageById e keep = .ok w' ∧
      (∀ x, w'.isAlive x = w.isAlive x) ∧
      (∀ k, k ∉ keep → w'.get k e = .ok none) ∧ (∀ k ∈ keep, w'.get k e = w.get k e) ∧
      ∀ k x, x ≠ e → x.gen < 65535 → w'.get k x = w.get k x := by
  obtain ⟨A, Q, hok⟩ := reach_ok hr
  have hv := issued_valid hok he
  obtain ⟨w', A', h1, h2, h3, h4⟩ := hok.retainStorageById hv keep
  refine ⟨w', ?_, h1, fun x => ?_, ?_, ?_, ?_⟩
  · cases keep with
    | nil => exact absurd rfl hk
    | cons k keep => exact h1
  · unfold World.isAlive; rw [h2]
  · intro k hkk
    rw [h3.get k hv.1, h4, if_pos ⟨hkk, rfl, Nat.le_refl _⟩]
  · intro k hkk
    rw [h3.get k hv.1, hok.get k hv.1, h4, if_neg (fun h => h.1 hkk)]
  · intro k x hx hxg
    rw [h3.get k hxg, hok.get k hxg, h4]
    split
    · rename_i hc
      rw [look_issued hok he k hx hc.2.1 hc.2.2]
    · rfl

example : ∃ w', demo.retainStorage ⟨0, 0⟩ [1] = .ok w' ∧ w'.get 0 ⟨0, 0⟩ = .ok none ∧
    w'.get 1 ⟨0, 0⟩ = .ok (some 20) ∧ w'.get 0 ⟨1, 0⟩ = .ok (some 11) :=
  ⟨_, rfl, rfl, rfl, rfl⟩

/-- C42 is false of `retain_storage::<()>(e)`: nothing is listed, yet nothing is removed;
`retain_storage_by_id(e, &[])` removes everything. -/
theorem C42_retain_nothing_fails :
    demo.retainStorage ⟨0, 0⟩ [] = .ok demo ∧ demo.get 0 ⟨0, 0⟩ = .ok (some 10) ∧
      ∃ w', demo.retainStorageById ⟨0, 0⟩ [] = .ok w' ∧ w'.get 0 ⟨0, 0⟩ = .ok none :=
  ⟨rfl, rfl, _, rfl, rfl⟩

/-- C42 needs an id of this world: an id of another world with the same index and a higher generation
takes the component of the entity alive at that index. -/
theorem C42_foreign_id_fails :
    ∃ w', demo.strip ⟨0, 1⟩ = .ok w' ∧ demo.isAlive ⟨0, 1⟩ = false ∧ demo.get 0 ⟨0, 0⟩ = .ok (some 10) ∧
      w'.isAlive ⟨0, 0⟩ = true ∧ w'.get 0 ⟨0, 0⟩ = .ok none :=
  ⟨_, rfl, rfl, rfl, rfl, rfl⟩

/-- C42, `AllStorages::retain`: the closure sees each component of that type exactly once; the entity keeps
it iff the closure said so; everything else is unchanged. The storage must exist. -/
theorem C42_retain {w : World V} {h : List Event} (hr : Reach fl w h) (k : Nat)
    (hk : k ∈ w.stos.map Prod.fst) {σ : Type} (st : σ) (f : σ → EId → V → Bool × σ) :
    ∃ st' calls w', w.retain k (st, []) (recordingRef f) = .ok ((st', calls), w') ∧
      (calls.map (·.id)).Nodup ∧
      (∀ x v, x.gen < 65535 → (w.get k x = .ok (some v) ↔ ∃ c ∈ calls, c.id = x ∧ c.given = v)) ∧
      (∀ c ∈ calls, w'.get k c.id = .ok (if c.keep then some c.given else none)) ∧
      (∀ x, x.gen < 65535 → w.get k x = .ok none → w'.get k x = .ok none) ∧
      (∀ x, w'.isAlive x = w.isAlive x) ∧
      ∀ j x, j ≠ k → x.gen < 65535 → w'.get j x = w.get j x := by
  obtain ⟨A, Q, hok⟩ := reach_ok hr
  have hsto := hok.sto k
  generalize hl : lookupK w.stos k = so at hsto
  generalize hA : A k = ao at hsto
  cases hsto with
  | none => exact absurd hk (lookupK_none.1 hl)
  | @some s a L ha =>
    obtain ⟨st', calls, s', a', L', h1, h2, h3, h4, h5, h6, h7⟩ := World.retain_ok ha st f w.counter
    have hw : Ok (w.tick.put k s') (setTab A k a') Q (issued h) :=
      Ok.put (w := w.tick) ⟨hok.ent, hok.nodup, hok.sto, hok.owned⟩ k h2 (h3.owned (hok.owned k a hA))
    have hlA : ∀ x, look A k x = StoSpec.lookup a.rows x := fun x => by unfold look; rw [hA]; rfl
    have hlA' : ∀ x, look (setTab A k a') k x = StoSpec.lookup a'.rows x := fun x => by
      rw [look_setTab, if_pos rfl]
    have hcg : ∀ c ∈ calls, c.id.gen < 65535 := by
      intro c hc
      have := (h5 c.id c.given).2 ⟨c, hc, rfl, rfl⟩
      rw [← hlA] at this
      exact (hok.ent.valid (hok.look_alive this)).1
    refine ⟨st', calls, w.tick.put k s', ?_, h4, ?_, ?_, ?_, fun x => rfl, ?_⟩
    · unfold World.retain
      rw [hl]
      simp only [h1, bind, Except.bind]
    · intro x v hx
      rw [hok.get k hx, hlA, ← h5]
      constructor
      · intro h; injection h
      · intro h; rw [h]
    · intro c hc
      rw [hw.get k (hcg c hc), hlA', h6 c hc]
    · intro x hx hg
      rw [hok.get k hx, hlA] at hg
      injection hg with hg
      rw [hw.get k hx, hlA', h7 x hg]
    · intro j x hj hx
      rw [hw.get j hx, hok.get j hx, look_setTab, if_neg (fun h => hj h)]

example : (0 : Nat) ∈ demo.stos.map Prod.fst := by decide
example : ∃ calls w', demo.retain 0 ((), []) (recordingRef fun _ _ v => (decide (v = 11), ())) =
    .ok (((), calls), w') ∧ w'.get 0 ⟨0, 0⟩ = .ok none ∧ w'.get 0 ⟨1, 0⟩ = .ok (some 11) ∧
    w'.get 1 ⟨0, 0⟩ = .ok (some 20) :=
  ⟨_, _, rfl, rfl, rfl, rfl⟩

/-- `AllStorages::retain` panics when no component of that type was ever added or borrowed. -/
theorem C42_retain_missing_storage_fails :
    Reach demoFlags demo [.added ⟨0, 0⟩, .added ⟨1, 0⟩, .added ⟨2, 0⟩] ∧
      demo.retain 7 () (fun _ _ _ => (true, ())) = .error .panic :=
  ⟨demo_reach, rfl⟩

/-! ## C43: `add_component`, `add_entity`, `bulk_add_entity` -/

/-- C43, dead ids: the call panics and no component and no entity changed. -/
theorem C43_add_component_dead (w : World V) (e : EId) (cs : List (Nat × Option V))
    (he : w.isAlive e = false) :
    ∃ w', w.addComponent fl e cs = .ok (.panicked, w') ∧ ∀ x, Same w w' x := by
  refine ⟨w.tick, ?_, fun x => ⟨rfl, fun k => rfl⟩⟩
  unfold World.addComponent
  rw [show w.ents.isAlive e = false from he]
  rfl

example : ∃ (w' : World Nat) (h' : List Event), Reach demoFlags w' h' ∧ w'.isAlive ⟨1, 0⟩ = false ∧ (⟨1, 0⟩ : EId) ∈ issued h' :=
  ⟨_, _, .deleteEntity (e := ⟨1, 0⟩) (b := true) demo_reach (by decide) rfl, rfl, by decide⟩

/-- C43, alive ids: the call returns; the entity has, for each type, the last component listed of that type
or else what it had; nothing else changed. -/
theorem C43_add_component {w : World V} {h : List Event} (hr : Reach fl w h) {e : EId}
    (he : w.isAlive e = true) (cs : List (Nat × Option V)) :
    ∃ w', w.addComponent fl e cs = .ok (.returned, w') ∧ (∀ x, w'.isAlive x = w.isAlive x) ∧
      (∀ k, ∃ c, w.get k e = .ok c ∧ w'.get k e = .ok (Listed cs k c)) ∧
      ∀ x k, x ≠ e → x.gen < 65535 → w'.get k x = w.get k x := by
  obtain ⟨A, Q, hok⟩ := reach_ok hr
  obtain ⟨w', A', h1, h2, h3, h4⟩ := hok.addComponent (fl := fl) he cs
  have hv := (hok.ent.valid he).1
  refine ⟨w', h1, fun x => by unfold World.isAlive; rw [h2], fun k => ⟨look A k e, hok.get k hv, ?_⟩, ?_⟩
  · rw [h3.get k hv, h4, if_pos rfl]
  · intro x k hx hxg
    rw [h3.get k hxg, hok.get k hxg, h4, if_neg hx]

/-- `Listed` in the common case: each listed type once. -/
theorem C43_listed_once {cs : List (Nat × Option V)} (hn : (cs.map Prod.fst).Nodup) (k : Nat) (old : Option V) :
    (∀ v, (k, some v) ∈ cs → Listed cs k old = some v) ∧
    ((∀ v, (k, some v) ∉ cs) → Listed cs k old = old) := by
  induction cs generalizing old with
  | nil => exact ⟨(fun v h => by cases h), fun _ => rfl⟩
  | cons c cs ih =>
    obtain ⟨j, c⟩ := c
    simp only [List.map_cons, List.nodup_cons] at hn
    cases c with
    | none =>
      refine ⟨fun v h => ?_, fun h => ?_⟩
      · rcases List.mem_cons.1 h with h | h
        · cases h
        · exact (ih hn.2 old).1 v h
      · exact (ih hn.2 old).2 fun v hv => h v (List.mem_cons_of_mem _ hv)
    | some u =>
      refine ⟨fun v h => ?_, fun h => ?_⟩
      · rcases List.mem_cons.1 h with h | h
        · cases h
          show Listed cs k (if k = k then some u else old) = _
          rw [if_pos rfl]
          exact (ih hn.2 _).2 fun v' hv => hn.1 (List.mem_map.2 ⟨_, hv, rfl⟩)
        · exact (ih hn.2 _).1 v h
      · have hj : j ≠ k := fun hjk => h u (by rw [hjk]; exact List.mem_cons_self)
        show Listed cs k (if j = k then some u else old) = _
        rw [if_neg hj]
        exact (ih hn.2 old).2 fun v hv => h v (List.mem_cons_of_mem _ hv)

example : ∃ w', demo.addComponent demoFlags ⟨1, 0⟩ [(0, some 5), (1, none), (2, some 7)] = .ok (.returned, w') ∧
    w'.get 0 ⟨1, 0⟩ = .ok (some 5) ∧ w'.get 1 ⟨1, 0⟩ = .ok none ∧ w'.get 2 ⟨1, 0⟩ = .ok (some 7) ∧
    w'.get 0 ⟨0, 0⟩ = .ok (some 10) :=
  ⟨_, rfl, rfl, rfl, rfl, rfl⟩

/-- C43, `add_entity`: a new id, never handed out before, alive with exactly the listed components; nothing
else changed. -/
theorem C43_add_entity {w : World V} {h : List Event} (hr : Reach fl w h) (cs : List (Nat × Option V))
    (hcap : w.ents.data.length + 1 < EId.maxIndex) :
    ∃ e w', w.addEntity fl cs = .ok (e, .returned, w') ∧
      w.isAlive e = false ∧ w'.isAlive e = true ∧ (∀ k, w'.get k e = .ok (Listed cs k none)) ∧
      ∀ x, x ≠ e → x.gen < 65535 → Same w w' x := by
  obtain ⟨A, Q, hok⟩ := reach_ok hr
  obtain ⟨e, ents, hg, hc⟩ := generate_total hok.ent hcap
  obtain ⟨w', A', Q', h1, h2, h3, h4, h5, h6⟩ := hok.addEntity (fl := fl) hg hc cs
  have he : w'.isAlive e = true := (h5 e).2 (Or.inr rfl)
  refine ⟨e, w', h1, h4, he, fun k => ?_, fun x hx hxg => ⟨?_, fun k => ?_⟩⟩
  · rw [h3.get k (h3.ent.valid he).1, h6, if_pos rfl]
  · apply Bool.eq_iff_iff.2
    rw [show w'.isAlive x = true ↔ _ from h5 x]
    constructor
    · rintro (h | h)
      · exact h
      · exact absurd h hx
    · exact Or.inl
  · rw [h3.get k hxg, hok.get k hxg, h6, if_neg hx]

example : ∃ e w', demo.addEntity demoFlags [(0, some 3)] = .ok (e, .returned, w') ∧ e = ⟨3, 0⟩ ∧
    w'.get 0 ⟨3, 0⟩ = .ok (some 3) ∧ w'.get 0 ⟨1, 0⟩ = .ok (some 11) :=
  ⟨_, _, rfl, rfl, rfl, rfl⟩
example : demo.ents.data.length + 1 < EId.maxIndex := by decide

/-- C43, `bulk_add_entity` of `n > 0` tuples, each column of `cols` holding the components of one type:
`n` new alive ids, the `i`-th with the `i`-th component of each column and nothing else. -/
theorem C43_bulk_add_entity {w : World V} {h : List Event} (hr : Reach fl w h) {cols : List (Nat × List V)}
    {n : Nat} (hn : 0 < n) (hlen : ∀ c ∈ cols, c.2.length = n) (hnd : (cols.map Prod.fst).Nodup)
    (hcap : w.ents.data.length + n < EId.maxIndex) :
    ∃ es w', w.bulkAddEntity fl cols n = .ok (es, w') ∧ es.length = n ∧ es.Nodup ∧
      (∀ e ∈ es, w.isAlive e = false ∧ w'.isAlive e = true) ∧
      (∀ (i : Nat) (e : EId), es[i]? = some e → ∀ k, w'.get k e = .ok ((lookupK cols k).bind (·[i]?))) ∧
      ∀ x, x ∉ es → x.gen < 65535 → Same w w' x := by
  obtain ⟨A, Q, hok⟩ := reach_ok hr
  obtain ⟨es, w', A', Q', h1, h2, h3, h4, h5, h6, h7⟩ := hok.bulkAddEntity (fl := fl) hn hlen hnd hcap
  have hmem : ∀ e, e ∈ es ↔ ∃ i, i < n ∧ e = ⟨w.ents.data.length + i, 0⟩ := by
    intro e
    rw [h2, List.mem_map]
    constructor
    · rintro ⟨i, hi, rfl⟩; exact ⟨i, List.mem_range.1 hi, rfl⟩
    · rintro ⟨i, hi, rfl⟩; exact ⟨i, List.mem_range.2 hi, rfl⟩
  refine ⟨es, w', h1, by rw [h2]; simp, ?_, ?_, ?_, ?_⟩
  · rw [h2]
    refine List.Pairwise.map _ (fun a b (hab : a ≠ b) h => hab ?_) List.nodup_range
    injection h with h _
    omega
  · exact fun e he => ⟨h6 e he, (h5 e).2 (Or.inr he)⟩
  · intro i e hi k
    have hin : i < n := by
      have := (List.getElem?_eq_some_iff.1 hi).1
      rw [h2] at this
      simpa using this
    have he : e = ⟨w.ents.data.length + i, 0⟩ := by
      rw [h2, List.getElem?_map, List.getElem?_range hin] at hi
      injection hi with hi
      exact hi.symm
    have hlk : look A k e = none := hok.look_dead k (h6 e (List.mem_of_getElem? hi))
    rw [h4.get k (by rw [he]; show (0 : Nat) < 65535; omega), h7, hlk, he]
    unfold colAt
    simp
  · intro x hx hxg
    refine ⟨?_, fun k => ?_⟩
    · apply Bool.eq_iff_iff.2
      rw [show w'.isAlive x = true ↔ _ from h5 x]
      exact ⟨fun h => h.resolve_right hx, Or.inl⟩
    · rw [h4.get k hxg, hok.get k hxg, h7]
      have : colAt cols w.ents.data.length k x = none := by
        unfold colAt
        cases hc : lookupK cols k with
        | none => rfl
        | some vs =>
          show (if x.gen = 0 ∧ w.ents.data.length ≤ x.idx then vs[x.idx - w.ents.data.length]? else none) = none
          split
          · rename_i hg
            apply List.getElem?_eq_none
            rw [hlen _ (lookupK_mem hc)]
            apply Nat.le_of_not_lt
            intro hlt
            apply hx
            rw [hmem]
            refine ⟨x.idx - w.ents.data.length, hlt, ?_⟩
            cases x
            simp only [EId.mk.injEq] at hg ⊢
            exact ⟨by omega, hg.1⟩
          · rfl
      rw [this]
      rfl

example : ∃ es w', demo.bulkAddEntity demoFlags [(0, [1, 2]), (1, [3, 4])] 2 = .ok (es, w') ∧
    es = [⟨3, 0⟩, ⟨4, 0⟩] ∧ w'.get 0 ⟨4, 0⟩ = .ok (some 2) ∧ w'.get 1 ⟨3, 0⟩ = .ok (some 3) :=
  ⟨_, _, rfl, rfl, rfl, rfl⟩

/-! ## C44: `remove`, `delete_component` -/

/-- C44, `remove::<(A, B, ..)>(e)` of distinct types, `e` an id of this world: returns each component `e`
has, in order; afterwards `e` has none of them; everything else is unchanged. -/
theorem C44_remove {w : World V} {h : List Event} (hr : Reach fl w h) {e : EId} (he : e ∈ issued h)
    (ks : List Nat) (hn : ks.Nodup) :
    ∃ rs w', w.remove fl ks e = .ok (rs, w') ∧ ks.map (fun k => w.get k e) = rs.map .ok ∧
      (∀ k ∈ ks, w'.get k e = .ok none) ∧ (∀ k, k ∉ ks → w'.get k e = w.get k e) ∧
      (∀ x, w'.isAlive x = w.isAlive x) ∧
      ∀ k x, x ≠ e → x.gen < 65535 → w'.get k x = w.get k x := by
  obtain ⟨A, Q, hok⟩ := reach_ok hr
  have hv := issued_valid hok he
  have hok' : Ok w.tick A Q (issued h) := ⟨hok.ent, hok.nodup, hok.sto, hok.owned⟩
  obtain ⟨rs, w', A', h1, h2, h3, h4, h5⟩ := hok'.removeAll (fl := fl) hv w.counter ks
  refine ⟨rs, w', h1, ?_, ?_, ?_, fun x => by unfold World.isAlive; rw [h2]; rfl, ?_⟩
  · rw [h4 hn, List.map_map]
    apply List.map_congr_left
    intro k _
    exact hok.get k hv.1
  · intro k hk
    rw [h3.get k hv.1, h5, if_pos ⟨hk, rfl, Nat.le_refl _⟩]
  · intro k hk
    rw [h3.get k hv.1, hok.get k hv.1, h5, if_neg (fun h => hk h.1)]
  · intro k x hx hxg
    rw [h3.get k hxg, hok.get k hxg, h5]
    split
    · rename_i hc
      rw [look_issued hok he k hx hc.2.1 hc.2.2]
    · rfl

example : ∃ w', demo.remove demoFlags [1, 0, 2] ⟨0, 0⟩ = .ok ([some 20, some 10, none], w') ∧
    w'.get 0 ⟨0, 0⟩ = .ok none ∧ w'.get 1 ⟨0, 0⟩ = .ok none ∧ w'.get 0 ⟨1, 0⟩ = .ok (some 11) :=
  ⟨_, rfl, rfl, rfl, rfl⟩

/-- C44, `delete_component::<(A, B, ..)>(e)`: returns whether `e` had one of the components; the first one
it has is gone, the rest is unchanged. Missing, because false: the others listed are deleted too
(`C44_delete_component_fails`). -/
theorem C44_delete_component_partial {w : World V} {h : List Event} (hr : Reach fl w h) {e : EId}
    (he : e ∈ issued h) (ks : List Nat) :
    ∃ b w', w.deleteComponent fl ks e = .ok (b, w') ∧
      (b = true ↔ ∃ k ∈ ks, ∃ v, w.get k e = .ok (some v)) ∧
      (b = true → ∃ k ∈ ks, w.get k e ≠ .ok none ∧ w'.get k e = .ok none ∧
        ∀ j, j ≠ k → w'.get j e = w.get j e) ∧
      (∀ x, w'.isAlive x = w.isAlive x) ∧
      ∀ k x, x ≠ e ∨ b = false → x.gen < 65535 → w'.get k x = w.get k x := by
  obtain ⟨A, Q, hok⟩ := reach_ok hr
  have hv := issued_valid hok he
  have hok' : Ok w.tick A Q (issued h) := ⟨hok.ent, hok.nodup, hok.sto, hok.owned⟩
  obtain ⟨w', A', h1, h2, h3, h4⟩ := hok'.deleteFirst (fl := fl) hv w.counter ks
  have hany : (ks.any fun k => (look A k e).isSome) = true ↔ ∃ k ∈ ks, ∃ v, w.get k e = .ok (some v) := by
    rw [List.any_eq_true]
    constructor
    · rintro ⟨k, hk, hs⟩
      obtain ⟨v, hv'⟩ := Option.isSome_iff_exists.1 hs
      exact ⟨k, hk, v, by rw [hok.get k hv.1, hv']⟩
    · rintro ⟨k, hk, v, hg⟩
      rw [hok.get k hv.1] at hg
      injection hg with hg
      exact ⟨k, hk, by rw [hg]; rfl⟩
  -- what `upTo` keeps: types `e` lacks and, last, the first one it has
  have hup : ∀ (p : Nat → Bool) (ks : List Nat), (∀ k ∈ upTo p ks, k ∈ ks) ∧
      ((ks.any p) = true → ∃ k ∈ upTo p ks, p k = true ∧ ∀ j ∈ upTo p ks, j ≠ k → p j = false) ∧
      ((ks.any p) = false → ∀ j ∈ upTo p ks, p j = false) := by
    intro p ks
    induction ks with
    | nil => exact ⟨fun _ h => h, (fun h => by cases h), fun _ _ h => by cases h⟩
    | cons k ks ih =>
      unfold upTo
      cases hp : p k with
      | true =>
        refine ⟨fun j hj => ?_, fun _ => ⟨k, by simp, hp, fun j hj hjk => ?_⟩, fun h => ?_⟩
        · simp at hj; simp [hj]
        · simp at hj; exact absurd hj hjk
        · simp [hp] at h
      | false =>
        simp only [Bool.false_eq_true, if_false]
        refine ⟨fun j hj => ?_, fun h => ?_, fun h j hj => ?_⟩
        · rcases List.mem_cons.1 hj with rfl | hj
          · exact List.mem_cons_self
          · exact List.mem_cons_of_mem _ (ih.1 j hj)
        · rw [List.any_cons, hp, Bool.false_or] at h
          obtain ⟨i, hi, hpi, hoth⟩ := ih.2.1 h
          refine ⟨i, List.mem_cons_of_mem _ hi, hpi, fun j hj hji => ?_⟩
          rcases List.mem_cons.1 hj with rfl | hj
          · exact hp
          · exact hoth j hj hji
        · rw [List.any_cons, hp, Bool.false_or] at h
          rcases List.mem_cons.1 hj with rfl | hj
          · exact hp
          · exact ih.2.2 h j hj
  obtain ⟨hu1, hu2, hu3⟩ := hup (fun k => (look A k e).isSome) ks
  refine ⟨_, w', h1, hany, ?_, fun x => by unfold World.isAlive; rw [h2]; rfl, ?_⟩
  · intro hb
    obtain ⟨k, hk, hs, hoth⟩ := hu2 hb
    obtain ⟨v, hv'⟩ := Option.isSome_iff_exists.1 hs
    refine ⟨k, hu1 k hk, ?_, ?_, ?_⟩
    · rw [hok.get k hv.1, hv']; intro h; injection h with h; cases h
    · rw [h3.get k hv.1, h4, if_pos ⟨hk, rfl, Nat.le_refl _⟩]
    · intro j hj
      rw [h3.get j hv.1, hok.get j hv.1, h4]
      split
      · rename_i hc
        have := hoth j hc.1 hj
        cases hl : look A j e with
        | none => rfl
        | some v => rw [hl] at this; cases this
      · rfl
  · intro k x hx hxg
    rw [h3.get k hxg, hok.get k hxg, h4]
    split
    · rename_i hc
      by_cases hxe : x = e
      · subst hxe
        have hb := hx.resolve_left (fun h => h rfl)
        have := hu3 hb k hc.1
        cases hl : look A k x with
        | none => rfl
        | some v => simp only [hl, Option.isSome_some] at this; cases this
      · rw [look_issued hok he k hxe hc.2.1 hc.2.2]
    · rfl

/-- C44 for one type. -/
theorem C44_delete_one {w : World V} {h : List Event} (hr : Reach fl w h) {e : EId} (he : e ∈ issued h)
    (k : Nat) :
    ∃ b w', w.deleteComponent fl [k] e = .ok (b, w') ∧ (b = true ↔ ∃ v, w.get k e = .ok (some v)) ∧
      w'.get k e = .ok none ∧ (∀ j, j ≠ k → w'.get j e = w.get j e) ∧
      (∀ x, w'.isAlive x = w.isAlive x) ∧
      ∀ j x, x ≠ e → x.gen < 65535 → w'.get j x = w.get j x := by
  obtain ⟨A, Q, hok⟩ := reach_ok hr
  have hv := issued_valid hok he
  obtain ⟨b, w', h1, h2, h3, h4, h5⟩ := C44_delete_component_partial hr he [k]
  refine ⟨b, w', h1, by rw [h2]; simp, ?_, ?_, h4, fun j x hx => h5 j x (Or.inl hx)⟩
  · cases hb : b with
    | true =>
      obtain ⟨j, hj, _, hg, _⟩ := h3 hb
      rw [List.mem_singleton.1 hj] at hg
      exact hg
    | false =>
      rw [h5 k e (Or.inr hb) hv.1, hok.get k hv.1]
      cases hl : look A k e with
      | none => rfl
      | some v =>
        have := h2.2 ⟨k, by simp, v, by rw [hok.get k hv.1, hl]⟩
        rw [hb] at this; cases this
  · intro j hj
    cases hb : b with
    | true =>
      obtain ⟨i, hi, _, _, hg⟩ := h3 hb
      rw [List.mem_singleton.1 hi] at hg
      exact hg j hj
    | false => exact h5 j e (Or.inr hb) hv.1

example : ∃ w', demo.deleteComponent demoFlags [1] ⟨0, 0⟩ = .ok (true, w') ∧ w'.get 1 ⟨0, 0⟩ = .ok none ∧
    w'.get 0 ⟨0, 0⟩ = .ok (some 10) ∧ w'.get 1 ⟨2, 0⟩ = .ok (some 22) :=
  ⟨_, rfl, rfl, rfl, rfl⟩

/-- C44 is false of `delete_component::<(A, B)>`: the deletions are joined by `||`, so an entity with both
components keeps the second. -/
theorem C44_delete_component_fails :
    ∃ w', demo.deleteComponent demoFlags [0, 1] ⟨0, 0⟩ = .ok (true, w') ∧ w'.get 0 ⟨0, 0⟩ = .ok none ∧
      w'.get 1 ⟨0, 0⟩ = .ok (some 20) :=
  ⟨_, rfl, rfl, rfl⟩

/-! ## C45: `delete_any` -/

/-- C45: the entities that have a component of a listed type are dead without any component; the others are
unchanged. `order` is the order in which the hash set of ids is iterated. Missing: holders of generation
65533 and 65534, which stay alive as in `C40_exhausted_fails`. -/
theorem C45_delete_any_partial {w : World V} {h : List Event} (hr : Reach fl w h) (ks : List Nat)
    {order : List EId → List EId} (ho : ∀ (ids : List EId) (e : EId), e ∈ order ids ↔ e ∈ ids) :
    ∃ w', w.deleteAny ks order = .ok w' ∧
      (∀ x, x.gen < 65533 → (∃ k ∈ ks, ∃ v, w.get k x = .ok (some v)) →
        w'.isAlive x = false ∧ ∀ k, w'.get k x = .ok none) ∧
      ∀ x, x.gen < 65535 → (∀ k ∈ ks, w.get k x = .ok none) → Same w w' x := by
  obtain ⟨A, Q, hok⟩ := reach_ok hr
  obtain ⟨w', A', Q', h1, h2, h3, h4, h5⟩ := hok.deleteAny ks ho
  refine ⟨w', h1, ?_, ?_⟩
  · rintro x hx ⟨k, hk, v, hg⟩
    have hxg : x.gen < 65535 := by omega
    rw [hok.get k hxg] at hg
    injection hg with hg
    have hex : ∃ k ∈ ks, look A k x ≠ none := ⟨k, hk, by rw [hg]; intro h; cases h⟩
    refine ⟨h4 x hex hx, fun j => ?_⟩
    rw [h2.get j hxg, h5, if_pos hex]
  · intro x hxg hnone
    have hno : ∀ k ∈ ks, look A k x = none := by
      intro k hk
      have := hnone k hk
      rw [hok.get k hxg] at this
      injection this
    refine ⟨h3 x hno, fun j => ?_⟩
    rw [h2.get j hxg, hok.get j hxg, h5, if_neg]
    rintro ⟨k, hk, hne⟩
    exact hne (hno k hk)

example : ∃ w', demo.deleteAny [0] id = .ok w' ∧ w'.isAlive ⟨0, 0⟩ = false ∧ w'.isAlive ⟨1, 0⟩ = false ∧
    w'.get 1 ⟨0, 0⟩ = .ok none ∧ w'.isAlive ⟨2, 0⟩ = true ∧ w'.get 1 ⟨2, 0⟩ = .ok (some 22) :=
  ⟨_, rfl, rfl, rfl, rfl, rfl, rfl⟩

/-! ## C46: `move_entity`, `move_components` -/

/-- C46: given that `other.spawn(e)` would succeed and that no entity is alive at that index there, the
entity is afterwards dead here and alive there with its components; the other entities of both worlds are
unchanged. Missing: an entity alive at that index in the other world (`C46_move_over_alive_fails`), the
generations 65533 and 65534 (`C40_exhausted_fails`), a refusal (`C46_move_refused_fails`). -/
theorem C46_move_entity_partial {w o : World V} {h ho : List Event} (hr : Reach fl w h) (hro : Reach fl o ho)
    {e : EId} (he : w.isAlive e = true) (hg : e.gen < 65533)
    (hfree : ∀ x, o.isAlive x = true → x.idx ≠ e.idx) {o1 : World V}
    (hs : o.spawn e = .ok (true, o1)) (hfit : Fits o1) :
    ∃ w' o', w.moveEntity fl o e = .ok (.returned, w', o') ∧
      w'.isAlive e = false ∧ (∀ k, w'.get k e = .ok none) ∧
      o'.isAlive e = true ∧ (∀ k, o'.get k e = w.get k e) ∧
      ∀ x, x ≠ e → x.gen < 65535 → Same w w' x ∧ Same o o' x := by
  obtain ⟨A, Q, hok⟩ := reach_ok hr
  obtain ⟨B, Q2, hoko⟩ := reach_ok hro
  have hsp : o.ents.spawn e = .ok (true, o1.ents) := by
    unfold World.spawn at hs
    cases hse : o.ents.spawn e with
    | error f => rw [hse] at hs; cases hs
    | ok p =>
      rw [hse] at hs
      simp only [bind, Except.bind, Except.ok.injEq, Prod.mk.injEq] at hs
      rw [← hs.2, ← hs.1]
  obtain ⟨w', o', A', B', Q', Q2', h1, h2, h3, h4, h5, h6, h7, h8, h9⟩ := hok.moveEntity (fl := fl) hoko he
    (fun x hx hi => absurd hi (hfree x hx)) hsp hfit
  have hv : e.gen < 65535 := by omega
  have hBe : ∀ k, look B k e = none := by
    intro k
    cases hl : look B k e with
    | none => rfl
    | some v => exact absurd rfl (hfree e (hoko.look_alive hl))
  refine ⟨w', o', h1, h6 hg, fun k => ?_, (h7 e).2 (Or.inr rfl), fun k => ?_, ?_⟩
  · rw [h3.get k hv, h8, if_pos rfl]
  · rw [h4.get k hv, hok.get k hv, h9, if_pos rfl, hBe]
    cases look A k e <;> rfl
  · intro x hx hxg
    refine ⟨⟨h5 x hx, fun k => ?_⟩, ⟨?_, fun k => ?_⟩⟩
    · rw [h3.get k hxg, hok.get k hxg, h8, if_neg hx]
    · apply Bool.eq_iff_iff.2
      rw [show o'.isAlive x = true ↔ _ from h7 x]
      exact ⟨fun h => h.resolve_right hx, Or.inl⟩
    · rw [h4.get k hxg, hoko.get k hxg, h9, if_neg hx]

/-- Another world, with one entity that was deleted. -/
def WSpec.demo2 : World Nat :=
  match (World.new : World Nat).addEntity demoFlags [(0, some 90)] with
  | .ok (_, _, w1) =>
    match w1.deleteEntity ⟨0, 0⟩ with
    | .ok (_, w2) => w2
    | .error _ => w1
  | .error _ => World.new
open WSpec (demo2)

theorem WSpec.demo2_reach : Reach demoFlags demo2 [.added ⟨0, 0⟩, .deleted ⟨0, 0⟩ true] :=
  .deleteEntity (e := ⟨0, 0⟩) (b := true)
    (.addEntity (cs := [(0, some 90)]) (r := .returned) (.init false) rfl (by unfold Fits; decide))
    (by decide) rfl
open WSpec (demo2_reach)

example : demo.isAlive ⟨1, 0⟩ = true ∧ (∀ x, demo2.isAlive x = true → x.idx ≠ (⟨1, 0⟩ : EId).idx) ∧
    ∃ o1, demo2.spawn ⟨1, 0⟩ = .ok (true, o1) ∧ Fits o1 := by
  refine ⟨rfl, ?_, _, rfl, by unfold Fits; decide⟩
  rintro ⟨i, g⟩ hx rfl
  have h2 : demo2.ents.data[1]? = none := rfl
  simp [World.isAlive, Entities.isAlive, h2] at hx

example : ∃ w' o', demo.moveEntity demoFlags demo2 ⟨1, 0⟩ = .ok (.returned, w', o') ∧
    w'.isAlive ⟨1, 0⟩ = false ∧ o'.isAlive ⟨1, 0⟩ = true ∧ o'.get 0 ⟨1, 0⟩ = .ok (some 11) ∧
    w'.get 0 ⟨0, 0⟩ = .ok (some 10) :=
  ⟨_, _, rfl, rfl, rfl, rfl, rfl⟩

/-- `move_entity` of a dead entity panics and changes no entity and no component of either world. -/
theorem C46_move_dead (w o : World V) (e : EId) (he : w.isAlive e = false) :
    ∃ w' o', w.moveEntity fl o e = .ok (.panicked, w', o') ∧ ∀ x, Same w w' x ∧ Same o o' x := by
  refine ⟨w.tick, o.tick, ?_, fun x => ⟨⟨rfl, fun k => rfl⟩, ⟨rfl, fun k => rfl⟩⟩⟩
  unfold World.moveEntity
  rw [Entities.deleteUnchecked_dead he]
  rfl

/-- C46 is false when the other world refuses the id: the call panics, the entity is gone from the first
world too and its components stay there. -/
theorem C46_move_refused_fails :
    ∃ (o w' o' : World Nat) (ho : List Event), Reach demoFlags o ho ∧ demo.isAlive ⟨0, 0⟩ = true ∧
      demo.moveEntity demoFlags o ⟨0, 0⟩ = .ok (.panicked, w', o') ∧
      w'.isAlive ⟨0, 0⟩ = false ∧ o'.isAlive ⟨0, 0⟩ = false ∧ w'.get 0 ⟨0, 0⟩ = .ok (some 10) :=
  ⟨_, _, _, _, .spawn (e := ⟨0, 5⟩) (b := true) (.init false) (by decide)
    (fun x hx => by simp [World.isAlive, Entities.isAlive, World.new, Entities.new] at hx) rfl
    (by unfold Fits; decide), rfl, rfl, rfl, rfl, rfl⟩

/-- C46 is false when another entity is alive at that index in the other world: it is killed without a word,
and its components of types the moved entity lacks stay behind. -/
theorem C46_move_over_alive_fails :
    ∃ (w w1 o' : World Nat) (h : List Event), Reach demoFlags w h ∧ w.isAlive ⟨0, 1⟩ = true ∧
      demo.isAlive ⟨0, 0⟩ = true ∧ demo.get 1 ⟨0, 0⟩ = .ok (some 20) ∧
      w.moveEntity demoFlags demo ⟨0, 1⟩ = .ok (.returned, w1, o') ∧
      o'.isAlive ⟨0, 0⟩ = false ∧ o'.get 1 ⟨0, 0⟩ = .ok (some 20) :=
  ⟨_, _, _, _, .addEntity (cs := [(0, some 91)]) (r := .returned) demo2_reach rfl (by unfold Fits; decide),
    rfl, rfl, rfl, rfl, rfl, rfl⟩

/-- C46 is false when the same id is alive in the other world: it ends up with the components of both. -/
theorem C46_move_merges_fails :
    ∃ (w w' o' : World Nat) (h : List Event), Reach demoFlags w h ∧ w.isAlive ⟨0, 0⟩ = true ∧
      w.get 1 ⟨0, 0⟩ = .ok none ∧ w.moveEntity demoFlags demo ⟨0, 0⟩ = .ok (.returned, w', o') ∧
      o'.get 0 ⟨0, 0⟩ = .ok (some 92) ∧ o'.get 1 ⟨0, 0⟩ = .ok (some 20) :=
  ⟨_, _, _, _, .addEntity (cs := [(0, some 92)]) (r := .returned) (.init false) rfl (by unfold Fits; decide),
    rfl, rfl, rfl, rfl, rfl⟩

/-- C46 for `move_components` between alive entities: `src` loses all its components, `dst` gets them, and
keeps its own of the other types. -/
theorem C46_move_components {w o : World V} {h ho : List Event} (hr : Reach fl w h) (hro : Reach fl o ho)
    {src dst : EId} (hsrc : w.isAlive src = true) (hdst : o.isAlive dst = true) :
    ∃ w' o', w.moveComponents fl o src dst = .ok (.returned, w', o') ∧
      (∀ x, w'.isAlive x = w.isAlive x) ∧ (∀ x, o'.isAlive x = o.isAlive x) ∧
      (∀ k, w'.get k src = .ok none) ∧
      (∀ k v, w.get k src = .ok (some v) → o'.get k dst = .ok (some v)) ∧
      (∀ k, w.get k src = .ok none → o'.get k dst = o.get k dst) ∧
      (∀ k x, x ≠ src → x.gen < 65535 → w'.get k x = w.get k x) ∧
      ∀ k x, x ≠ dst → x.gen < 65535 → o'.get k x = o.get k x := by
  obtain ⟨A, Q, hok⟩ := reach_ok hr
  obtain ⟨B, Q2, hoko⟩ := reach_ok hro
  obtain ⟨w', o', A', B', h1, h2, h3, h4, h5, h6, h7⟩ := hok.moveComponents (fl := fl) hoko hsrc hdst
  have hs := (hok.ent.valid hsrc).1
  have hd := (hoko.ent.valid hdst).1
  refine ⟨w', o', h1, fun x => by unfold World.isAlive; rw [h2], fun x => by unfold World.isAlive; rw [h3],
    fun k => ?_, fun k v hg => ?_, fun k hg => ?_, fun k x hx hxg => ?_, fun k x hx hxg => ?_⟩
  · rw [h4.get k hs, h6, if_pos rfl]
  · rw [hok.get k hs] at hg
    injection hg with hg
    rw [h5.get k hd, h7, if_pos rfl, hg]
    rfl
  · rw [hok.get k hs] at hg
    injection hg with hg
    rw [h5.get k hd, hoko.get k hd, h7, if_pos rfl, hg]
    rfl
  · rw [h4.get k hxg, hok.get k hxg, h6, if_neg hx]
  · rw [h5.get k hxg, hoko.get k hxg, h7, if_neg hx]

example : ∃ w' o', demo.moveComponents demoFlags demo ⟨0, 0⟩ ⟨2, 0⟩ = .ok (.returned, w', o') ∧
    w'.get 0 ⟨0, 0⟩ = .ok none ∧ o'.get 0 ⟨2, 0⟩ = .ok (some 10) ∧ o'.get 1 ⟨2, 0⟩ = .ok (some 20) ∧
    w'.isAlive ⟨0, 0⟩ = true :=
  ⟨_, _, rfl, rfl, rfl, rfl, rfl⟩

/-! ## C47: `clone_entity_to`, `clone_components_to`, `clone_storages_to` -/

/-- A clone function was registered for the components of type `k` in `w`. -/
def WSpec.Cloneable (w : World V) (k : Nat) : Prop := ∃ s, lookupK w.stos k = some s ∧ s.canClone = true
open WSpec (Cloneable)

/-- `register_clone::<T>()` makes the type cloneable, the others stay what they were; no component changes. -/
theorem C47_register_clone {w : World V} {h : List Event} (hr : Reach fl w h) (k : Nat) :
    (∀ j, Cloneable (w.registerClone fl k) j ↔ j = k ∨ Cloneable w j) ∧
    ∀ x, x.gen < 65535 → Same w (w.registerClone fl k) x := by
  obtain ⟨A, Q, hok⟩ := reach_ok hr
  obtain ⟨A', h1, h2⟩ := hok.registerClone (fl := fl) k
  refine ⟨fun j => ?_, fun x hx => ⟨rfl, fun j => by rw [h1.get j hx, hok.get j hx, h2]⟩⟩
  have hl : lookupK (w.registerClone fl k).stos j =
      if j = k then some { w.stoOr fl k with canClone := true } else lookupK w.stos j := by
    unfold World.registerClone World.put
    rw [lookupK_setK]
  unfold Cloneable
  rw [hl]
  by_cases hj : j = k
  · rw [if_pos hj]; exact ⟨fun _ => Or.inl hj, fun _ => ⟨_, rfl, rfl⟩⟩
  · rw [if_neg hj]; exact ⟨Or.inr, fun h => h.resolve_left hj⟩

theorem cloned_eq {cl : Nat → V → V} {w : World V} {A : Nat → Option (StoSpec.Sto V)} {k : Nat} {e : EId} :
    (Cloneable w k → cloned cl w A k e = (look A k e).map (cl k)) ∧
    (¬ Cloneable w k → cloned cl w A k e = none) := by
  unfold cloned Cloneable
  cases lookupK w.stos k with
  | none => exact ⟨(fun ⟨s, h, _⟩ => by cases h), fun _ => rfl⟩
  | some s =>
    constructor
    · rintro ⟨s', h, hc⟩
      cases h
      simp only [hc, if_true]
    · intro h
      cases hc : s.canClone with
      | true => exact absurd ⟨s, rfl, hc⟩ h
      | false => simp only [hc, Bool.false_eq_true, if_false]

/-- C47, `clone_entity_to`: given that `other.spawn(e)` would succeed and that no entity is alive at that
index there, `e` is alive there with a clone of each of its components of a cloneable type and nothing else;
the other entities there are unchanged. The source is only read. Missing: `e` or another entity alive at
that index in the other world, see `C47_clone_entity_merges_fails`. -/
theorem C47_clone_entity_partial {w o : World V} {h ho : List Event} (hr : Reach fl w h) (hro : Reach fl o ho)
    {e : EId} (he : w.isAlive e = true) (cl : Nat → V → V)
    (hfree : ∀ x, o.isAlive x = true → x.idx ≠ e.idx) {o1 : World V}
    (hs : o.spawn e = .ok (true, o1)) (hfit : Fits o1) :
    ∃ o', w.cloneEntityTo fl cl o e = .ok (.returned, o') ∧ o'.isAlive e = true ∧
      (∀ k c, Cloneable w k → w.get k e = .ok c → o'.get k e = .ok (c.map (cl k))) ∧
      (∀ k, ¬ Cloneable w k → o'.get k e = .ok none) ∧
      ∀ x, x ≠ e → x.gen < 65535 → Same o o' x := by
  obtain ⟨A, Q, hok⟩ := reach_ok hr
  obtain ⟨B, Q2, hoko⟩ := reach_ok hro
  have hsp : o.ents.spawn e = .ok (true, o1.ents) := by
    unfold World.spawn at hs
    cases hse : o.ents.spawn e with
    | error f => rw [hse] at hs; cases hs
    | ok p =>
      rw [hse] at hs
      simp only [bind, Except.bind, Except.ok.injEq, Prod.mk.injEq] at hs
      rw [← hs.2, ← hs.1]
  obtain ⟨o', B', Q2', h1, h2, h3, h4, h5⟩ := hok.cloneEntityTo (fl := fl) hoko he cl
    (fun x hx hi => absurd hi (hfree x hx)) hsp hfit
  have hv := (hok.ent.valid he).1
  have hBe : ∀ k, look B k e = none := by
    intro k
    cases hl : look B k e with
    | none => rfl
    | some v => exact absurd rfl (hfree e (hoko.look_alive hl))
  refine ⟨o', h1, (h4 e).2 (Or.inr rfl), fun k c hc hg => ?_, fun k hc => ?_, fun x hx hxg => ⟨?_, fun k => ?_⟩⟩
  · rw [hok.get k hv] at hg
    injection hg with hg
    rw [h3.get k hv, h5, if_pos rfl, cloned_eq.1 hc, hg, hBe]
    cases c <;> rfl
  · rw [h3.get k hv, h5, if_pos rfl, cloned_eq.2 hc, hBe]
    rfl
  · apply Bool.eq_iff_iff.2
    rw [show o'.isAlive x = true ↔ _ from h4 x]
    exact ⟨fun h => h.resolve_right hx, Or.inl⟩
  · rw [h3.get k hxg, hoko.get k hxg, h5, if_neg hx]

example : ∃ o', (demo.registerClone demoFlags 0).cloneEntityTo demoFlags (fun _ v => v + 100) demo2 ⟨1, 0⟩ =
    .ok (.returned, o') ∧ o'.get 0 ⟨1, 0⟩ = .ok (some 111) :=
  ⟨_, rfl, rfl⟩

/-- C47 is false when the id is alive in the other world: it keeps the components the source lacks. -/
theorem C47_clone_entity_merges_fails :
    ∃ (w o' : World Nat) (h : List Event), Reach demoFlags w h ∧ w.isAlive ⟨0, 0⟩ = true ∧
      Cloneable w 1 ∧ w.get 1 ⟨0, 0⟩ = .ok none ∧
      w.cloneEntityTo demoFlags (fun _ v => v) demo ⟨0, 0⟩ = .ok (.returned, o') ∧
      o'.get 1 ⟨0, 0⟩ = .ok (some 20) :=
  ⟨_, _, _, .registerClone 1 (.addEntity (cs := [(0, some 92)]) (r := .returned) (.init false) rfl
    (by unfold Fits; decide)), rfl, ⟨_, rfl, rfl⟩, rfl, rfl, rfl⟩

/-- C47, `clone_components_to` between alive entities. -/
theorem C47_clone_components {w o : World V} {h ho : List Event} (hr : Reach fl w h) (hro : Reach fl o ho)
    {src dst : EId} (hsrc : w.isAlive src = true) (hdst : o.isAlive dst = true) (cl : Nat → V → V) :
    ∃ o', w.cloneComponentsTo fl cl o src dst = .ok (.returned, o') ∧ (∀ x, o'.isAlive x = o.isAlive x) ∧
      (∀ k v, Cloneable w k → w.get k src = .ok (some v) → o'.get k dst = .ok (some (cl k v))) ∧
      (∀ k, ¬ Cloneable w k ∨ w.get k src = .ok none → o'.get k dst = o.get k dst) ∧
      ∀ k x, x ≠ dst → x.gen < 65535 → o'.get k x = o.get k x := by
  obtain ⟨A, Q, hok⟩ := reach_ok hr
  obtain ⟨B, Q2, hoko⟩ := reach_ok hro
  obtain ⟨o', B', h1, h2, h3, h4⟩ := hok.cloneComponentsTo (fl := fl) hoko hsrc hdst cl
  have hs := (hok.ent.valid hsrc).1
  have hd := (hoko.ent.valid hdst).1
  refine ⟨o', h1, fun x => by unfold World.isAlive; rw [h2], fun k v hc hg => ?_, fun k hc => ?_,
    fun k x hx hxg => ?_⟩
  · rw [hok.get k hs] at hg
    injection hg with hg
    rw [h3.get k hd, h4, if_pos rfl, cloned_eq.1 hc, hg]
    rfl
  · rw [h3.get k hd, hoko.get k hd, h4, if_pos rfl]
    by_cases hcl : Cloneable w k
    · have hg := hc.resolve_left (fun h => h hcl)
      rw [hok.get k hs] at hg
      injection hg with hg
      rw [cloned_eq.1 hcl, hg]
      rfl
    · rw [cloned_eq.2 hcl]
      rfl
  · rw [h3.get k hxg, hoko.get k hxg, h4, if_neg hx]

example : ∃ o', (demo.registerClone demoFlags 0).cloneComponentsTo demoFlags (fun _ v => v + 100) demo ⟨0, 0⟩
    ⟨2, 0⟩ = .ok (.returned, o') ∧ o'.get 0 ⟨2, 0⟩ = .ok (some 110) ∧ o'.get 1 ⟨2, 0⟩ = .ok (some 22) :=
  ⟨_, rfl, rfl, rfl⟩

/-- C47, `clone_storages_to` and `World::clone`: the other world has exactly the entities of this one; its
components of a cloneable type are the clones; those of the other types are what it had. -/
theorem C47_clone_storages {w : World V} (o : World V) {h : List Event} (hr : Reach fl w h)
    (cl : Nat → V → V) :
    (∀ x, (w.cloneStoragesTo fl cl o).isAlive x = w.isAlive x) ∧
    (∀ k x c, x.gen < 65535 → Cloneable w k → w.get k x = .ok c →
      (w.cloneStoragesTo fl cl o).get k x = .ok (c.map (cl k))) ∧
    ∀ k x, ¬ Cloneable w k → (w.cloneStoragesTo fl cl o).get k x = o.get k x := by
  obtain ⟨A, Q, hok⟩ := reach_ok hr
  obtain ⟨hl, _, _⟩ := cloneLoop_lookup (fl := fl) cl o.counter w.stos o.tick hok.nodup
  refine ⟨fun x => rfl, fun k x c hx hc hg => ?_, fun k x hc => ?_⟩
  · obtain ⟨s, hs, hcc⟩ := hc
    have hsto := hok.sto k
    rw [hs] at hsto
    generalize hA : A k = ao at hsto
    cases hsto with
    | some ha =>
      obtain ⟨L', hL'⟩ := cloneSto_ok (fl := fl) ha cl o.counter k
      have h1 : (w.cloneStoragesTo fl cl o).get k x = (cloneSto fl cl o.counter k s).get x := by
        unfold World.get World.cloneStoragesTo
        simp only [hl, hs, hcc, if_true]
      rw [hok.get k hx] at hg
      injection hg with hg
      rw [h1, hL'.get hx, lookup_cloneTab, ← hg]
      unfold look
      rw [hA]
      rfl
  · unfold World.get World.cloneStoragesTo
    simp only [hl]
    cases hs : lookupK w.stos k with
    | none => rfl
    | some s =>
      cases hcc : s.canClone with
      | true => exact absurd ⟨s, hs, hcc⟩ hc
      | false =>
        simp only [hcc, Bool.false_eq_true, if_false]
        rfl

/-- C47, into a new world: exactly the cloneable components, nothing else. -/
theorem C47_clone_world {w : World V} {h : List Event} (hr : Reach fl w h) (cl : Nat → V → V) :
    Reach fl (w.cloneStoragesTo fl cl World.new) h ∧
    (∀ x, (w.cloneStoragesTo fl cl World.new).isAlive x = w.isAlive x) ∧
    (∀ k x c, x.gen < 65535 → Cloneable w k → w.get k x = .ok c →
      (w.cloneStoragesTo fl cl World.new).get k x = .ok (c.map (cl k))) ∧
    ∀ k x, ¬ Cloneable w k → (w.cloneStoragesTo fl cl World.new).get k x = .ok none := by
  have hro : Reach fl (World.new : World V) [] := .init false
  obtain ⟨h1, h2, h3⟩ := C47_clone_storages World.new hr cl
  refine ⟨.cloneStoragesIn cl hr hro (fun k s h => by cases h), h1, h2, fun k x hc => ?_⟩
  rw [h3 k x hc]
  rfl

example : Cloneable (demo.registerClone demoFlags 0) 0 ∧ ¬ Cloneable (demo.registerClone demoFlags 0) 1 ∧
    ((demo.registerClone demoFlags 0).cloneStoragesTo demoFlags (fun _ v => v) World.new).get 0 ⟨1, 0⟩ =
      .ok (some 11) := by
  refine ⟨⟨_, rfl, rfl⟩, ?_, rfl⟩
  rintro ⟨s, h, hc⟩
  cases h
  cases hc

/-- The clone does not know the clone functions: cloning the clone keeps the entities and loses all the
components. -/
theorem C47_clone_of_clone_fails :
    ∃ w1 w2 : World Nat, w1 = (demo.registerClone demoFlags 0).cloneStoragesTo demoFlags (fun _ v => v) World.new ∧
      w2 = w1.cloneStoragesTo demoFlags (fun _ v => v) World.new ∧
      w1.get 0 ⟨0, 0⟩ = .ok (some 10) ∧ w2.isAlive ⟨0, 0⟩ = true ∧ w2.get 0 ⟨0, 0⟩ = .ok none :=
  ⟨_, _, rfl, rfl, rfl, rfl, rfl⟩

end Verif

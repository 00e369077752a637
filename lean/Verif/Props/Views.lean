import Verif.Lemmas.Views

/-!
# C68: calls on tuples of views act on every view

Stated for the worlds reached through the API (`Reach`), `w.get k x` being `world.get::<&T>(x)` for the
component type of storage `k`. `Viewed w ks` says exclusive views of the distinct storages `ks` are held.
`Did w w' k ev` says that storage `k` went through exactly the call `ev` of the storage specification
(`Verif/Spec/Storage.lean`), which fixes its components, timestamps, logs and callbacks.
-/
namespace Verif
open EntSpec (Event issued)
open StoSpec (Valid)
open WSpec (Reach Viewed Did Untouched Same demo demoFlags demo_reach Fits)
open World
variable {V : Type} {fl : Flags} {now : Nat → Nat}

theorem Viewed.tail {w : World V} {k : Nat} {ks : List Nat} (h : Viewed w (k :: ks)) (s : SparseSet V) :
    Viewed (w.put k s) ks := by
  refine ⟨(List.nodup_cons.1 h.1).2, fun j hj => ?_⟩
  rw [put_lookup]
  split
  · exact ⟨_, rfl⟩
  · exact h.2 j (List.mem_cons_of_mem _ hj)

theorem Viewed.drop {w : World V} {k : Nat} {ks : List Nat} (h : Viewed w (k :: ks)) : Viewed w ks :=
  ⟨(List.nodup_cons.1 h.1).2, fun j hj => h.2 j (List.mem_cons_of_mem _ hj)⟩

/-! ## Adding components -/

theorem views_add {w : World V} {h : List Event} (hr : Reach fl w h) {e : EId} (he : w.isAlive e = true)
    (cs : List (Nat × Option V)) (hv : Viewed w (cs.map Prod.fst)) :
    ∃ w', vAddUnchecked now e cs w = .ok w' ∧ Reach fl w' h ∧ w'.ents = w.ents ∧
      (∀ k v, (k, some v) ∈ cs → w'.get k e = .ok (some v) ∧ ∃ r, Did w w' k (.inserted e v (now k) r)) ∧
      (∀ k, (∀ v, (k, some v) ∉ cs) → Untouched w w' k) ∧
      ∀ k x, x ≠ e → x.gen < 65535 → w'.get k x = w.get k x := by
  induction cs generalizing w with
  | nil => exact ⟨w, rfl, hr, rfl, (fun k v h => by cases h), fun _ _ => rfl, fun _ _ _ _ => rfl⟩
  | cons c cs ih =>
    obtain ⟨k, c⟩ := c
    cases c with
    | none =>
      obtain ⟨w', h1, h2, h3, h4, h5, h6⟩ := ih hr he (Viewed.drop hv)
      refine ⟨w', h1, h2, h3, fun j v hj => ?_, fun j hj => h5 j fun v hv => hj v (List.mem_cons_of_mem _ hv), h6⟩
      rcases List.mem_cons.1 hj with hj | hj
      · cases hj
      · exact h4 j v hj
    | some v =>
      obtain ⟨s, hl⟩ := hv.2 k List.mem_cons_self
      obtain ⟨r, s', g1, _, g2, g3, g4⟩ := view_insert hr hl he v (now k)
      obtain ⟨w', h1, h2, h3, h4, h5, h6⟩ := ih g3 he (Viewed.tail hv s')
      have hk : ∀ u, (k, some u) ∉ cs := fun u hu =>
        (List.nodup_cons.1 hv.1).1 (List.mem_map.2 ⟨_, hu, rfl⟩)
      have hk' : lookupK w'.stos k = some s' := by
        rw [h5 k hk, put_lookup, if_pos rfl]
      refine ⟨w', ?_, h2, h3, fun j u hj => ?_, fun j hj => ?_, fun j x hx hxg => ?_⟩
      · simp only [vAddUnchecked, vInsert, hl, g1, bind, Except.bind]
        exact h1
      · rcases List.mem_cons.1 hj with hj' | hj'
        · cases hj'
          refine ⟨?_, r, s, s', hl, hk', .insert g2 g1⟩
          rw [get_of_sto hk', ← get_of_sto (w := w.put k s') (k := k) (by rw [put_lookup, if_pos rfl]),
            g4 k e g2.1, if_pos ⟨rfl, rfl⟩]
        · obtain ⟨i1, r', t, t', i2, i3, i4⟩ := h4 j u hj'
          have hjk : j ≠ k := by rintro rfl; exact hk u hj'
          rw [put_lookup, if_neg hjk] at i2
          exact ⟨i1, r', t, t', i2, i3, i4⟩
      · have hjk : j ≠ k := by rintro rfl; exact hj v List.mem_cons_self
        have := h5 j fun u hu => hj u (List.mem_cons_of_mem _ hu)
        unfold Untouched at this
        rw [put_lookup, if_neg hjk] at this
        exact this
      · rw [h6 j x hx hxg, g4 j x hxg, if_neg (fun h => hx h.2)]

/-- C68, `entities.add_component(e, (&mut a, &mut b, ..), (x, y, ..))` of an alive entity: each component
given is stored, once, in its storage; an `Option` holding nothing leaves its storage alone; no other
storage and no other entity changed. -/
theorem C68_add_component {w : World V} {h : List Event} (hr : Reach fl w h) {e : EId}
    (he : w.isAlive e = true) (cs : List (Nat × Option V)) (hv : Viewed w (cs.map Prod.fst)) :
    ∃ w', vAddComponent now e cs w = .ok (.returned, w') ∧ Reach fl w' h ∧
      (∀ x, w'.isAlive x = w.isAlive x) ∧
      (∀ k v, (k, some v) ∈ cs → w'.get k e = .ok (some v) ∧ ∃ r, Did w w' k (.inserted e v (now k) r)) ∧
      (∀ k, (∀ v, (k, some v) ∉ cs) → Untouched w w' k) ∧
      ∀ k x, x ≠ e → x.gen < 65535 → w'.get k x = w.get k x := by
  obtain ⟨w', h1, h2, h3, h4, h5, h6⟩ := views_add (now := now) hr he cs hv
  refine ⟨w', ?_, h2, fun x => by unfold World.isAlive; rw [h3], h4, h5, h6⟩
  unfold vAddComponent
  rw [if_pos (show w.ents.isAlive e = true from he), h1]
  rfl

/-- C68, dead entity: the call panics and nothing changed. -/
theorem C68_add_component_dead (w : World V) {e : EId} (he : w.isAlive e = false) (cs : List (Nat × Option V)) :
    vAddComponent now e cs w = .ok (.panicked, w) := by
  unfold vAddComponent
  rw [show w.ents.isAlive e = false from he]
  rfl

theorem demo_views : ∀ k ∈ [1, 0], ∃ s, lookupK demo.stos k = some s := by
  intro k hk
  simp only [List.mem_cons, List.not_mem_nil, or_false] at hk
  rcases hk with rfl | rfl
  · exact ⟨_, rfl⟩
  · exact ⟨_, rfl⟩

example : Viewed demo [1, 0] ∧ ∃ w', vAddComponent (fun k => 40 + k) ⟨1, 0⟩ [(1, some 5), (0, none)] demo =
    .ok (.returned, w') ∧ w'.get 1 ⟨1, 0⟩ = .ok (some 5) ∧ w'.get 0 ⟨1, 0⟩ = .ok (some 11) ∧
    w'.get 1 ⟨2, 0⟩ = .ok (some 22) :=
  ⟨⟨by decide, demo_views⟩, _, rfl, rfl, rfl, rfl⟩

/-- C68, `entities.add_entity((&mut a, &mut b, ..), (x, y, ..))`: a new id, never handed out before, alive
with exactly the listed components; nothing else changed. -/
theorem C68_add_entity {w : World V} {h : List Event} (hr : Reach fl w h) (cs : List (Nat × V))
    (hv : Viewed w (cs.map Prod.fst)) (hcap : w.ents.data.length + 1 < EId.maxIndex) :
    ∃ e w', vAddEntity now cs w = .ok (e, w') ∧ Reach fl w' (h ++ [.added e]) ∧
      w.isAlive e = false ∧ w'.isAlive e = true ∧
      (∀ k v, (k, v) ∈ cs → w'.get k e = .ok (some v) ∧ ∃ r, Did w w' k (.inserted e v (now k) r)) ∧
      (∀ k, (∀ v, (k, v) ∉ cs) → w'.get k e = .ok none ∧ Untouched w w' k) ∧
      ∀ x, x ≠ e → x.gen < 65535 → Same w w' x := by
  have hmap : ∀ (cs : List (Nat × V)) (w : World V) (e : EId),
      vAddEntityAll now e cs w = vAddUnchecked now e (cs.map fun c => (c.1, some c.2)) w := by
    intro cs
    induction cs with
    | nil => intro w e; rfl
    | cons c cs ih =>
      intro w e
      simp only [vAddEntityAll, List.map_cons, vAddUnchecked, ih]
  obtain ⟨A, Q, hok⟩ := reach_ok hr
  obtain ⟨e, ents, hg, hc⟩ := generate_total hok.ent hcap
  obtain ⟨w1, A1, Q1, h1, h2, h3, h4, h5, h6⟩ := hok.addEntity (fl := fl) hg hc ([] : List (Nat × Option V))
  have hw1 : w1 = { w.tick with ents := ents } := by
    have : w.addEntity fl [] = .ok (e, .returned, { w.tick with ents := ents }) := by
      unfold World.addEntity
      simp only [hg, bind, Except.bind]
      rfl
    rw [h1] at this
    injection this with this
    injection this with _ this
    injection this
  have hr1 : Reach fl w1 (h ++ [.added e]) := .addEntity hr h1 (by unfold Fits; rw [h2]; exact hc)
  have hr2 : Reach fl { w with ents := ents } (h ++ [.added e]) := by
    have := Reach.clock w.counter hr1
    rw [hw1] at this
    exact this
  have he : w1.isAlive e = true := (h5 e).2 (Or.inr rfl)
  have he2 : ({ w with ents := ents } : World V).isAlive e = true := by rw [hw1] at he; exact he
  have hfst : (cs.map fun c => (c.1, some c.2)).map Prod.fst = cs.map Prod.fst := by
    rw [List.map_map]; rfl
  have hmem : ∀ k v, (k, some v) ∈ (cs.map fun c => (c.1, some c.2)) ↔ (k, v) ∈ cs := by
    intro k v
    rw [List.mem_map]
    constructor
    · rintro ⟨⟨j, u⟩, hc, he⟩; cases he; exact hc
    · intro hc; exact ⟨_, hc, rfl⟩
  obtain ⟨w', g1, g2, g3, g4, g5, g6⟩ := views_add (now := now) hr2 he2 (cs.map fun c => (c.1, some c.2))
    (by rw [hfst]; exact hv)
  have hal : ∀ x, w'.isAlive x = w1.isAlive x := by
    intro x; unfold World.isAlive; rw [g3, h2]
  refine ⟨e, w', ?_, g2, h4, by rw [hal]; exact he, fun k v hk => g4 k v ((hmem k v).2 hk), fun k hk => ?_,
    fun x hx hxg => ⟨?_, fun k => ?_⟩⟩
  · unfold vAddEntity
    simp only [hg, bind, Except.bind, hmap, g1]
  · have hu : lookupK w'.stos k = lookupK w.stos k := g5 k fun v hv => hk v ((hmem k v).1 hv)
    refine ⟨?_, hu⟩
    have : w'.get k e = w.get k e := by unfold World.get; rw [hu]
    rw [this, hok.get k (by have := h3.ent.valid he; exact this.1), hok.look_dead k h4]
  · rw [hal]
    apply Bool.eq_iff_iff.2
    rw [show w1.isAlive x = true ↔ _ from h5 x]
    constructor
    · rintro (h | h)
      · exact h
      · exact absurd h hx
    · exact Or.inl
  · rw [g6 k x hx hxg]; rfl

example : ∃ w', vAddEntity (fun k => 40 + k) [(1, 5), (0, 6)] demo = .ok (⟨3, 0⟩, w') ∧
    w'.isAlive ⟨3, 0⟩ = true ∧ w'.get 1 ⟨3, 0⟩ = .ok (some 5) ∧ w'.get 0 ⟨3, 0⟩ = .ok (some 6) :=
  ⟨_, rfl, rfl, rfl, rfl⟩

/-! ## `add_distinct_component` -/

/-- C68, `add_distinct_component` of one view: afterwards the entity has the component; `false`, and nothing
changed, not even a timestamp, exactly when it had an equal one before. -/
theorem C68_add_distinct_one [DecidableEq V] {w : World V} {h : List Event} (hr : Reach fl w h) {e : EId}
    (he : w.isAlive e = true) (k : Nat) (v : V) (hv : Viewed w [k]) :
    ∃ b w', vAddDistinctComponent now e [(k, v)] w = .ok (some b, w') ∧ Reach fl w' h ∧
      w'.get k e = .ok (some v) ∧ (b = false ↔ w.get k e = .ok (some v)) ∧ (b = false → w' = w) ∧
      (b = true → ∃ r, Did w w' k (.inserted e v (now k) r)) ∧
      (∀ x, w'.isAlive x = w.isAlive x) ∧
      ∀ j x, x ≠ e ∨ j ≠ k → x.gen < 65535 → w'.get j x = w.get j x := by
  obtain ⟨s, hl⟩ := hv.2 k List.mem_cons_self
  obtain ⟨r, s', g1, gi, g2, g3, g4⟩ := view_insert hr hl he v (now k)
  obtain ⟨c, i, f1, f2, f3, f4, f5⟩ := view_find hr hl g2.1
  by_cases hc : c = some v
  · refine ⟨false, w, ?_, hr, by rw [f1, hc], by rw [f1, hc]; simp, fun _ => rfl, (fun h => by cases h),
      fun _ => rfl, fun _ _ _ _ => rfl⟩
    unfold vAddDistinctComponent
    rw [if_pos (show w.ents.isAlive e = true from he)]
    simp only [vAddDistinct, vAddDistinctOne, hl, f2, bind, Except.bind, if_pos hc, Bool.false_eq_true, if_false]
  · refine ⟨true, w.put k s', ?_, g3, by rw [g4 k e g2.1, if_pos ⟨rfl, rfl⟩], ?_, (fun h => by cases h),
      fun _ => ⟨r, s, s', hl, by rw [put_lookup, if_pos rfl], .insert g2 g1⟩, fun _ => rfl, fun j x hx hxg => ?_⟩
    · unfold vAddDistinctComponent
      rw [if_pos (show w.ents.isAlive e = true from he)]
      simp only [vAddDistinct, vAddDistinctOne, hl, f2, bind, Except.bind, if_neg hc, g1, gi, if_true]
    · rw [f1]
      constructor
      · intro h; cases h
      · intro h; injection h with h; exact absurd h hc
    · rw [g4 j x hxg, if_neg]
      rintro ⟨h1, h2⟩
      rcases hx with hx | hx
      · exact hx h2
      · exact hx h1

/-- C68, `add_distinct_component` of a tuple. Missing, because false (`C68_add_distinct_fails`): all the
components are added. What holds: the result tells whether some component was missing or different; if so
the first such one is stored and the rest is unchanged. -/
theorem C68_add_distinct_partial [DecidableEq V] {w : World V} {h : List Event} (hr : Reach fl w h) {e : EId}
    (he : w.isAlive e = true) (cs : List (Nat × V)) (hv : Viewed w (cs.map Prod.fst)) :
    ∃ b w', vAddDistinctComponent now e cs w = .ok (some b, w') ∧ Reach fl w' h ∧
      (b = false ↔ ∀ c ∈ cs, w.get c.1 e = .ok (some c.2)) ∧ (b = false → w' = w) ∧
      (b = true → ∃ pre c post, cs = pre ++ c :: post ∧ (∀ d ∈ pre, w.get d.1 e = .ok (some d.2)) ∧
        w.get c.1 e ≠ .ok (some c.2) ∧ w'.get c.1 e = .ok (some c.2) ∧
        (∃ r, Did w w' c.1 (.inserted e c.2 (now c.1) r)) ∧ ∀ j, j ≠ c.1 → Untouched w w' j) ∧
      (∀ x, w'.isAlive x = w.isAlive x) ∧
      ∀ j x, x ≠ e → x.gen < 65535 → w'.get j x = w.get j x := by
  unfold vAddDistinctComponent
  rw [if_pos (show w.ents.isAlive e = true from he)]
  induction cs with
  | nil =>
    refine ⟨false, w, rfl, hr, ⟨(fun _ c hc => by cases hc), fun _ => rfl⟩, fun _ => rfl, (fun h => by cases h),
      fun _ => rfl, fun _ _ _ _ => rfl⟩
  | cons c cs ih =>
    obtain ⟨k, v⟩ := c
    obtain ⟨s, hl⟩ := hv.2 k List.mem_cons_self
    obtain ⟨r, s', g1, gi, g2, g3, g4⟩ := view_insert hr hl he v (now k)
    obtain ⟨c, i, f1, f2, f3, f4, f5⟩ := view_find hr hl g2.1
    by_cases hc : c = some v
    · obtain ⟨b, w', h1, h2, h3, h4, h5, h6, h7⟩ := ih (Viewed.drop hv)
      refine ⟨b, w', ?_, h2, ?_, h4, fun hb => ?_, h6, h7⟩
      · rw [← h1]
        simp only [vAddDistinct, vAddDistinctOne, hl, f2, bind, Except.bind, if_pos hc, Bool.false_eq_true, if_false]
      · rw [h3]
        constructor
        · intro h' d hd
          rcases List.mem_cons.1 hd with rfl | hd
          · rw [f1, hc]
          · exact h' d hd
        · intro h' d hd; exact h' d (List.mem_cons_of_mem _ hd)
      · obtain ⟨pre, d, post, i1, i2, i3⟩ := h5 hb
        refine ⟨(k, v) :: pre, d, post, by rw [i1]; rfl, fun d' hd' => ?_, i3⟩
        rcases List.mem_cons.1 hd' with rfl | hd'
        · rw [f1, hc]
        · exact i2 d' hd'
    · refine ⟨true, w.put k s', ?_, g3, ?_, (fun h => by cases h), fun _ => ?_, fun _ => rfl, fun j x hx hxg => ?_⟩
      · simp only [vAddDistinct, vAddDistinctOne, hl, f2, bind, Except.bind, if_neg hc, g1, gi, if_true]
      · constructor
        · intro h; cases h
        · intro h
          have := h (k, v) List.mem_cons_self
          rw [f1] at this
          injection this with this
          exact absurd this hc
      · refine ⟨[], (k, v), cs, rfl, (fun d hd => by cases hd), ?_, ?_, ⟨r, s, s', hl, ?_, .insert g2 g1⟩, ?_⟩
        · rw [f1]; intro h; injection h with h; exact hc h
        · rw [g4 k e g2.1, if_pos ⟨rfl, rfl⟩]
        · rw [put_lookup, if_pos rfl]
        · intro j hj
          unfold Untouched
          rw [put_lookup, if_neg hj]
      · rw [g4 j x hxg, if_neg (fun h => hx h.2)]

/-- C68 is false of `add_distinct_component` of a tuple: the calls are joined by `||`
(`src/add_distinct_component.rs:99-101`), so once a component is added the following ones are dropped. -/
theorem C68_add_distinct_fails :
    (∃ h, Reach demoFlags demo h) ∧ demo.isAlive ⟨1, 0⟩ = true ∧ Viewed demo [1, 0] ∧
    ∃ w', vAddDistinctComponent (fun k => 40 + k) ⟨1, 0⟩ [(1, 5), (0, 6)] demo = .ok (some true, w') ∧
      w'.get 1 ⟨1, 0⟩ = .ok (some 5) ∧ w'.get 0 ⟨1, 0⟩ = .ok (some 11) :=
  ⟨⟨_, demo_reach⟩, rfl, ⟨by decide, demo_views⟩, _, rfl, rfl, rfl⟩

/-! ## Reading -/

/-- C68, `(&a, &b, ..).contains(e)`: whether `e` has all the components. -/
theorem C68_contains {w : World V} {h : List Event} (hr : Reach fl w h) {e : EId} (hg : e.gen < 65535)
    (ks : List Nat) (hv : ∀ k ∈ ks, ∃ s, lookupK w.stos k = some s) :
    ∃ b, vContains e ks w = .ok b ∧ (b = true ↔ ∀ k ∈ ks, ∃ v, w.get k e = .ok (some v)) := by
  induction ks with
  | nil => exact ⟨true, rfl, ⟨(fun _ k hk => by cases hk), fun _ => rfl⟩⟩
  | cons k ks ih =>
    obtain ⟨s, hl⟩ := hv k List.mem_cons_self
    obtain ⟨c, i, f1, f2, f3, f4, f5⟩ := view_find hr hl hg
    obtain ⟨b, h1, h2⟩ := ih fun j hj => hv j (List.mem_cons_of_mem _ hj)
    cases c with
    | none =>
      refine ⟨false, ?_, ⟨(fun h => by cases h), fun h => ?_⟩⟩
      · simp only [vContains, hl, f5, bind, Except.bind]
        rfl
      · obtain ⟨v, hv'⟩ := h k List.mem_cons_self
        rw [f1] at hv'; cases hv'
    | some c =>
      refine ⟨b, ?_, ?_⟩
      · simp only [vContains, hl, f5, bind, Except.bind]
        exact h1
      · rw [h2]
        constructor
        · intro h' j hj
          rcases List.mem_cons.1 hj with rfl | hj
          · exact ⟨c, f1⟩
          · exact h' j hj
        · intro h' j hj; exact h' j (List.mem_cons_of_mem _ hj)

example : vContains ⟨0, 0⟩ [1, 0] demo = .ok true ∧ vContains ⟨1, 0⟩ [1, 0] demo = .ok false := ⟨rfl, rfl⟩

/-- C68, `(&a, &b, ..).get(e)`: all the components, in order, when `e` has them; else the error names the
first type that is missing. -/
theorem C68_get {w : World V} {h : List Event} (hr : Reach fl w h) {e : EId} (hg : e.gen < 65535)
    (ks : List Nat) (hv : ∀ k ∈ ks, ∃ s, lookupK w.stos k = some s) :
    (∃ vs, vGet e ks w = .ok (.ok vs) ∧ ks.map (fun k => w.get k e) = vs.map fun v => .ok (some v)) ∨
    (∃ pre k post, vGet e ks w = .ok (.error k) ∧ ks = pre ++ k :: post ∧ w.get k e = .ok none ∧
      ∀ j ∈ pre, ∃ v, w.get j e = .ok (some v)) := by
  induction ks with
  | nil => exact .inl ⟨[], rfl, rfl⟩
  | cons k ks ih =>
    obtain ⟨s, hl⟩ := hv k List.mem_cons_self
    obtain ⟨c, i, f1, f2, f3, f4, f5⟩ := view_find hr hl hg
    cases c with
    | none =>
      refine .inr ⟨[], k, ks, ?_, rfl, f1, (fun j hj => by cases hj)⟩
      simp only [vGet, hl, f2, bind, Except.bind]
    | some c =>
      rcases ih fun j hj => hv j (List.mem_cons_of_mem _ hj) with ⟨vs, h1, h2⟩ | ⟨pre, j, post, h1, h2, h3, h4⟩
      · refine .inl ⟨c :: vs, ?_, ?_⟩
        · simp only [vGet, hl, f2, bind, Except.bind, h1]
        · simp only [List.map_cons, f1, h2]
      · refine .inr ⟨k :: pre, j, post, ?_, by rw [h2]; rfl, h3, fun i hi => ?_⟩
        · simp only [vGet, hl, f2, bind, Except.bind, h1]
        · rcases List.mem_cons.1 hi with rfl | hi
          · exact ⟨c, f1⟩
          · exact h4 i hi

example : vGet ⟨0, 0⟩ [1, 0] demo = .ok (.ok [20, 10]) ∧ vGet ⟨1, 0⟩ [0, 1] demo = .ok (.error 1) := ⟨rfl, rfl⟩

/-- C68, `view[e]`: the component, or a panic when there is none. -/
theorem C68_index {w : World V} {h : List Event} (hr : Reach fl w h) {e : EId} (hg : e.gen < 65535)
    (k : Nat) (hv : ∃ s, lookupK w.stos k = some s) :
    (∀ v, w.get k e = .ok (some v) → vIndex e k w = .ok v) ∧
    (w.get k e = .ok none → vIndex e k w = .error .panic) := by
  obtain ⟨s, hl⟩ := hv
  obtain ⟨c, i, f1, f2, f3, f4, f5⟩ := view_find hr hl hg
  refine ⟨fun v hc => ?_, fun hc => ?_⟩ <;>
  · rw [f1] at hc
    injection hc with hc
    subst hc
    simp only [vIndex, hl, f2, bind, Except.bind]

example : vIndex ⟨0, 0⟩ 1 demo = .ok 20 ∧ vIndex ⟨1, 0⟩ 1 demo = .error .panic := ⟨rfl, rfl⟩

/-! ## Writing -/

theorem views_find {w : World V} {h : List Event} (hr : Reach fl w h) {e : EId} (hg : e.gen < 65535)
    (ks : List Nat) (hv : ∀ k ∈ ks, ∃ s, lookupK w.stos k = some s) :
    (vFindAll e ks w = .ok (.ok ()) ∧ ∀ k ∈ ks, ∃ v, w.get k e = .ok (some v)) ∨
    (∃ pre k post, vFindAll e ks w = .ok (.error k) ∧ ks = pre ++ k :: post ∧ w.get k e = .ok none ∧
      ∀ j ∈ pre, ∃ v, w.get j e = .ok (some v)) := by
  induction ks with
  | nil => exact .inl ⟨rfl, (fun k hk => by cases hk)⟩
  | cons k ks ih =>
    obtain ⟨s, hl⟩ := hv k List.mem_cons_self
    obtain ⟨c, i, f1, f2, f3, f4, f5⟩ := view_find hr hl hg
    cases c with
    | none =>
      cases i with
      | some i => cases f4
      | none =>
        refine .inr ⟨[], k, ks, ?_, rfl, f1, (fun j hj => by cases hj)⟩
        simp only [vFindAll, hl, f3, bind, Except.bind]
    | some c =>
      cases i with
      | none => cases f4
      | some i =>
        rcases ih fun j hj => hv j (List.mem_cons_of_mem _ hj) with ⟨h1, h2⟩ | ⟨pre, j, post, h1, h2, h3, h4⟩
        · refine .inl ⟨?_, fun j hj => ?_⟩
          · simp only [vFindAll, hl, f3, bind, Except.bind, h1]
          · rcases List.mem_cons.1 hj with rfl | hj
            · exact ⟨c, f1⟩
            · exact h2 j hj
        · refine .inr ⟨k :: pre, j, post, ?_, by rw [h2]; rfl, h3, fun i hi => ?_⟩
          · simp only [vFindAll, hl, f3, bind, Except.bind, h1]
          · rcases List.mem_cons.1 hi with rfl | hi
            · exact ⟨c, f1⟩
            · exact h4 i hi

theorem views_write {w : World V} {h : List Event} (hr : Reach fl w h) {e : EId} (he : e ∈ issued h)
    (cs : List (Nat × Option V)) (hv : Viewed w (cs.map Prod.fst))
    (hall : ∀ k ∈ cs.map Prod.fst, ∃ v, w.get k e = .ok (some v)) :
    ∃ w', vWriteAll now e cs w = .ok w' ∧ Reach fl w' h ∧ w'.ents = w.ents ∧
      (∀ k v, (k, some v) ∈ cs → w'.get k e = .ok (some v) ∧ Did w w' k (.wrote [(e, v)] (now k))) ∧
      (∀ k, (∀ v, (k, some v) ∉ cs) → Untouched w w' k) ∧
      ∀ k x, x ≠ e → x.gen < 65535 → w'.get k x = w.get k x := by
  induction cs generalizing w with
  | nil => exact ⟨w, rfl, hr, rfl, (fun k v h => by cases h), fun _ _ => rfl, fun _ _ _ _ => rfl⟩
  | cons c cs ih =>
    obtain ⟨k, c⟩ := c
    cases c with
    | none =>
      obtain ⟨w', h1, h2, h3, h4, h5, h6⟩ := ih hr (Viewed.drop hv)
        fun j hj => hall j (List.mem_cons_of_mem _ hj)
      refine ⟨w', h1, h2, h3, fun j v hj => ?_, fun j hj => h5 j fun v hv => hj v (List.mem_cons_of_mem _ hv), h6⟩
      rcases List.mem_cons.1 hj with hj | hj
      · cases hj
      · exact h4 j v hj
    | some v =>
      obtain ⟨A, Q, hok⟩ := reach_ok hr
      have heg := (issued_valid hok he).1
      obtain ⟨s, hl⟩ := hv.2 k List.mem_cons_self
      obtain ⟨old, hold⟩ := hall k List.mem_cons_self
      obtain ⟨s', g1, g2, g3, g4⟩ := view_write hr hl he hold v (now k)
      have hk : ∀ u, (k, some u) ∉ cs := fun u hu =>
        (List.nodup_cons.1 hv.1).1 (List.mem_map.2 ⟨_, hu, rfl⟩)
      have hk0 : k ∉ cs.map Prod.fst := (List.nodup_cons.1 hv.1).1
      obtain ⟨w', h1, h2, h3, h4, h5, h6⟩ := ih g3 (Viewed.tail hv s') (by
        intro j hj
        have hjk : j ≠ k := by rintro rfl; exact hk0 hj
        rw [g4 j e heg, if_neg (fun h => hjk h.1)]
        exact hall j (List.mem_cons_of_mem _ hj))
      have hk' : lookupK w'.stos k = some s' := by
        rw [h5 k hk, put_lookup, if_pos rfl]
      refine ⟨w', ?_, h2, h3, fun j u hj => ?_, fun j hj => ?_, fun j x hx hxg => ?_⟩
      · simp only [vWriteAll, hl, g1, bind, Except.bind]
        exact h1
      · rcases List.mem_cons.1 hj with hj' | hj'
        · cases hj'
          refine ⟨?_, s, s', hl, hk', g2⟩
          rw [get_of_sto hk', ← get_of_sto (w := w.put k s') (k := k) (by rw [put_lookup, if_pos rfl]),
            g4 k e heg, if_pos ⟨rfl, rfl⟩]
        · obtain ⟨i1, t, t', i2, i3, i4⟩ := h4 j u hj'
          have hjk : j ≠ k := by rintro rfl; exact hk u hj'
          rw [put_lookup, if_neg hjk] at i2
          exact ⟨i1, t, t', i2, i3, i4⟩
      · have hjk : j ≠ k := by rintro rfl; exact hj v List.mem_cons_self
        have := h5 j fun u hu => hj u (List.mem_cons_of_mem _ hu)
        unfold Untouched at this
        rw [put_lookup, if_neg hjk] at this
        exact this
      · rw [h6 j x hx hxg, g4 j x hxg, if_neg (fun h => hx h.2)]

/-- C68, `(&mut a, &mut b, ..).get(e)` followed by writes through some of the `Mut`s returned: granted when
`e` has all the components, else the error names the first type missing and nothing changed. A component
written has its new value and its storage went through one write, which is what modification tracking
reports; a component that is only read leaves its storage bit for bit the same. -/
theorem C68_get_mut {w : World V} {h : List Event} (hr : Reach fl w h) {e : EId} (he : e ∈ issued h)
    (cs : List (Nat × Option V)) (hv : Viewed w (cs.map Prod.fst)) :
    (∃ w', vGetMut now e cs w = .ok (.ok (), w') ∧ Reach fl w' h ∧
      (∀ k ∈ cs.map Prod.fst, ∃ v, w.get k e = .ok (some v)) ∧
      (∀ x, w'.isAlive x = w.isAlive x) ∧
      (∀ k v, (k, some v) ∈ cs → w'.get k e = .ok (some v) ∧ Did w w' k (.wrote [(e, v)] (now k))) ∧
      (∀ k, (∀ v, (k, some v) ∉ cs) → Untouched w w' k) ∧
      ∀ k x, x ≠ e → x.gen < 65535 → w'.get k x = w.get k x) ∨
    (∃ pre k post, vGetMut now e cs w = .ok (.error k, w) ∧ cs.map Prod.fst = pre ++ k :: post ∧
      w.get k e = .ok none ∧ ∀ j ∈ pre, ∃ v, w.get j e = .ok (some v)) := by
  obtain ⟨A, Q, hok⟩ := reach_ok hr
  have heg := (issued_valid hok he).1
  rcases views_find hr heg (cs.map Prod.fst) hv.2 with ⟨h1, h2⟩ | ⟨pre, k, post, h1, h2, h3, h4⟩
  · obtain ⟨w', g1, g2, g3, g4, g5, g6⟩ := views_write (now := now) hr he cs hv h2
    refine .inl ⟨w', ?_, g2, h2, fun x => by unfold World.isAlive; rw [g3], g4, g5, g6⟩
    simp only [vGetMut, h1, g1, bind, Except.bind]
  · refine .inr ⟨pre, k, post, ?_, h2, h3, h4⟩
    simp only [vGetMut, h1, bind, Except.bind]

example : ∃ w', vGetMut (fun k => 40 + k) ⟨0, 0⟩ [(1, some 5), (0, none)] demo = .ok (.ok (), w') ∧
    w'.get 1 ⟨0, 0⟩ = .ok (some 5) ∧ w'.get 0 ⟨0, 0⟩ = .ok (some 10) := ⟨_, rfl, rfl, rfl⟩
example : vGetMut (fun k => 40 + k) ⟨1, 0⟩ [(0, some 5), (1, some 6)] demo = .ok (.error 1, demo) := rfl

/-- C68, `view[e] = v`: one write, or a panic when `e` has no component. -/
theorem C68_index_mut {w : World V} {h : List Event} (hr : Reach fl w h) {e : EId} (he : e ∈ issued h)
    (k : Nat) (v : V) (hv : ∃ s, lookupK w.stos k = some s) :
    (∀ c, w.get k e = .ok (some c) → ∃ w', vIndexMut now e k v w = .ok w' ∧ Reach fl w' h ∧
      w'.get k e = .ok (some v) ∧ Did w w' k (.wrote [(e, v)] (now k)) ∧ ∀ j, j ≠ k → Untouched w w' j) ∧
    (w.get k e = .ok none → vIndexMut now e k v w = .error .panic) := by
  obtain ⟨s, hl⟩ := hv
  obtain ⟨A, Q, hok⟩ := reach_ok hr
  have heg := (issued_valid hok he).1
  refine ⟨fun c hc => ?_, fun hc => ?_⟩
  · obtain ⟨s', g1, g2, g3, g4⟩ := view_write hr hl he hc v (now k)
    refine ⟨w.put k s', ?_, g3, by rw [g4 k e heg, if_pos ⟨rfl, rfl⟩], ⟨s, s', hl, by rw [put_lookup, if_pos rfl], g2⟩,
      fun j hj => by unfold Untouched; rw [put_lookup, if_neg hj]⟩
    simp only [vIndexMut, hl, g1, bind, Except.bind, if_true]
  · obtain ⟨c, i, f1, f2, f3, f4, f5⟩ := view_find hr hl heg
    rw [f1] at hc
    injection hc with hc
    subst hc
    cases i with
    | some i => cases f4
    | none =>
      simp only [vIndexMut, SparseSet.modify, hl, f3, bind, Except.bind, Bool.false_eq_true, if_false]

example : ∃ w', vIndexMut (fun k => 40 + k) ⟨0, 0⟩ 1 5 demo = .ok w' ∧ w'.get 1 ⟨0, 0⟩ = .ok (some 5) :=
  ⟨_, rfl, rfl⟩

/-! ## Taking components out -/

/-- C68, `(&mut a, &mut b, ..).remove(e)`: each component `e` has is returned, in order, and gone; the other
storages and entities are unchanged. -/
theorem C68_remove {w : World V} {h : List Event} (hr : Reach fl w h) {e : EId} (he : e ∈ issued h)
    (ks : List Nat) (hv : Viewed w ks) :
    ∃ rs w', vRemove now e ks w = .ok (rs, w') ∧ Reach fl w' h ∧ ks.map (fun k => w.get k e) = rs.map .ok ∧
      (∀ x, w'.isAlive x = w.isAlive x) ∧
      (∀ k ∈ ks, w'.get k e = .ok none ∧ ∃ c, w.get k e = .ok c ∧ Did w w' k (.removed e (now k) c)) ∧
      (∀ k, k ∉ ks → Untouched w w' k) ∧
      ∀ k x, x ≠ e → x.gen < 65535 → w'.get k x = w.get k x := by
  induction ks generalizing w with
  | nil => exact ⟨[], w, rfl, hr, rfl, fun _ => rfl, (fun k hk => by cases hk), fun _ _ => rfl, fun _ _ _ _ => rfl⟩
  | cons k ks ih =>
    obtain ⟨A, Q, hok⟩ := reach_ok hr
    have heg := (issued_valid hok he).1
    obtain ⟨s, hl⟩ := hv.2 k List.mem_cons_self
    have hk0 : k ∉ ks := (List.nodup_cons.1 hv.1).1
    obtain ⟨c, s', g0, g1, g2, g3, g4⟩ := view_remove hr hl he (now k)
    obtain ⟨rs, w', h1, h2, h3, h4, h5, h6, h7⟩ := ih g3 (Viewed.tail hv s')
    have hk' : lookupK w'.stos k = some s' := by
      rw [h6 k hk0, put_lookup, if_pos rfl]
    refine ⟨c :: rs, w', ?_, h2, ?_, fun x => (h4 x).trans rfl, fun j hj => ?_, fun j hj => ?_, fun j x hx hxg => ?_⟩
    · simp only [vRemove, hl, g1, h1, bind, Except.bind]
    · rw [List.map_cons, List.map_cons, g0, ← h3]
      congr 1
      apply List.map_congr_left
      intro j hj
      have hjk : j ≠ k := by rintro rfl; exact hk0 hj
      rw [g4 j e heg, if_neg (fun h => hjk h.1)]
    · rcases List.mem_cons.1 hj with hj' | hj'
      · subst hj'
        refine ⟨?_, c, g0, s, s', hl, hk', g2⟩
        rw [get_of_sto hk', ← get_of_sto (w := w.put j s') (k := j) (by rw [put_lookup, if_pos rfl]),
          g4 j e heg, if_pos ⟨rfl, rfl⟩]
      · obtain ⟨i1, d, i2, t, t', i3, i4, i5⟩ := h5 j hj'
        have hjk : j ≠ k := by rintro rfl; exact hk0 hj'
        rw [put_lookup, if_neg hjk] at i3
        rw [g4 j e heg, if_neg (fun h => hjk h.1)] at i2
        exact ⟨i1, d, i2, t, t', i3, i4, i5⟩
    · have hjk : j ≠ k := by rintro rfl; exact hj List.mem_cons_self
      have := h6 j fun hu => hj (List.mem_cons_of_mem _ hu)
      unfold Untouched at this
      rw [put_lookup, if_neg hjk] at this
      exact this
    · rw [h7 j x hx hxg, g4 j x hxg, if_neg (fun h => hx h.2)]

example : ∃ w', vRemove (fun k => 40 + k) ⟨0, 0⟩ [1, 0] demo = .ok ([some 20, some 10], w') ∧
    w'.get 1 ⟨0, 0⟩ = .ok none ∧ w'.get 0 ⟨0, 0⟩ = .ok none ∧ w'.get 0 ⟨1, 0⟩ = .ok (some 11) :=
  ⟨_, rfl, rfl, rfl, rfl⟩

/-- C68, `(&mut a, &mut b, ..).delete(e)`: every component listed is deleted, unlike `delete_component` of
a world (`C44_delete_component_fails`); the result tells whether there was one. -/
theorem C68_delete {w : World V} {h : List Event} (hr : Reach fl w h) {e : EId} (he : e ∈ issued h)
    (ks : List Nat) (hv : Viewed w ks) :
    ∃ b w', vDelete now e ks w = .ok (b, w') ∧ Reach fl w' h ∧
      (b = true ↔ ∃ k ∈ ks, ∃ v, w.get k e = .ok (some v)) ∧
      (∀ x, w'.isAlive x = w.isAlive x) ∧
      (∀ k ∈ ks, w'.get k e = .ok none ∧ ∃ c, w.get k e = .ok c ∧ Did w w' k (.deleted e (now k) c)) ∧
      (∀ k, k ∉ ks → Untouched w w' k) ∧
      ∀ k x, x ≠ e → x.gen < 65535 → w'.get k x = w.get k x := by
  induction ks generalizing w with
  | nil =>
    exact ⟨false, w, rfl, hr, ⟨(fun h => by cases h), fun ⟨k, hk, _⟩ => by cases hk⟩, fun _ => rfl,
      (fun k hk => by cases hk), fun _ _ => rfl, fun _ _ _ _ => rfl⟩
  | cons k ks ih =>
    obtain ⟨A, Q, hok⟩ := reach_ok hr
    have heg := (issued_valid hok he).1
    obtain ⟨s, hl⟩ := hv.2 k List.mem_cons_self
    have hk0 : k ∉ ks := (List.nodup_cons.1 hv.1).1
    obtain ⟨c, s', g0, g1, g2, g3, g4⟩ := view_delete hr hl he (now k)
    obtain ⟨b, w', h1, h2, h3, h4, h5, h6, h7⟩ := ih g3 (Viewed.tail hv s')
    have hk' : lookupK w'.stos k = some s' := by
      rw [h6 k hk0, put_lookup, if_pos rfl]
    have hother : ∀ j ∈ ks, (w.put k s').get j e = w.get j e := by
      intro j hj
      have hjk : j ≠ k := by rintro rfl; exact hk0 hj
      rw [g4 j e heg, if_neg (fun h => hjk h.1)]
    refine ⟨c.isSome || b, w', ?_, h2, ?_, fun x => (h4 x).trans rfl, fun j hj => ?_, fun j hj => ?_,
      fun j x hx hxg => ?_⟩
    · simp only [vDelete, hl, g1, h1, bind, Except.bind]
    · rw [Bool.or_eq_true, h3]
      constructor
      · rintro (hc | ⟨j, hj, v, hjv⟩)
        · obtain ⟨v, rfl⟩ := Option.isSome_iff_exists.1 hc
          exact ⟨k, List.mem_cons_self, v, g0⟩
        · exact ⟨j, List.mem_cons_of_mem _ hj, v, by rw [← hother j hj]; exact hjv⟩
      · rintro ⟨j, hj, v, hjv⟩
        rcases List.mem_cons.1 hj with hj' | hj'
        · subst hj'
          rw [g0] at hjv
          injection hjv with hjv
          rw [hjv]
          exact .inl rfl
        · exact .inr ⟨j, hj', v, by rw [hother j hj']; exact hjv⟩
    · rcases List.mem_cons.1 hj with hj' | hj'
      · subst hj'
        refine ⟨?_, c, g0, s, s', hl, hk', g2⟩
        rw [get_of_sto hk', ← get_of_sto (w := w.put j s') (k := j) (by rw [put_lookup, if_pos rfl]),
          g4 j e heg, if_pos ⟨rfl, rfl⟩]
      · obtain ⟨i1, d, i2, t, t', i3, i4, i5⟩ := h5 j hj'
        have hjk : j ≠ k := by rintro rfl; exact hk0 hj'
        rw [put_lookup, if_neg hjk] at i3
        rw [hother j hj'] at i2
        exact ⟨i1, d, i2, t, t', i3, i4, i5⟩
    · have hjk : j ≠ k := by rintro rfl; exact hj List.mem_cons_self
      have := h6 j fun hu => hj (List.mem_cons_of_mem _ hu)
      unfold Untouched at this
      rw [put_lookup, if_neg hjk] at this
      exact this
    · rw [h7 j x hx hxg, g4 j x hxg, if_neg (fun h => hx h.2)]

example : ∃ w', vDelete (fun k => 40 + k) ⟨0, 0⟩ [1, 0] demo = .ok (true, w') ∧
    w'.get 1 ⟨0, 0⟩ = .ok none ∧ w'.get 0 ⟨0, 0⟩ = .ok none ∧ w'.get 0 ⟨1, 0⟩ = .ok (some 11) :=
  ⟨_, rfl, rfl, rfl, rfl⟩

/-! ## `get_or_insert` -/

/-- C68, `view.get_or_insert_with(e, f)` of an alive entity: its component; `f()` is inserted exactly when
there is none, else nothing changes. -/
theorem C68_get_or_insert {w : World V} {h : List Event} (hr : Reach fl w h) {e : EId}
    (he : w.isAlive e = true) (k : Nat) (f : V) (hv : ∃ s, lookupK w.stos k = some s) :
    ∃ c w', w.get k e = .ok c ∧ vGetOrInsert now e k f w = .ok (some (c.getD f), w') ∧ Reach fl w' h ∧
      w'.get k e = .ok (some (c.getD f)) ∧ (c ≠ none → w' = w) ∧
      (c = none → ∃ r, Did w w' k (.inserted e f (now k) r)) ∧ (∀ j, j ≠ k → Untouched w w' j) ∧
      (∀ x, w'.isAlive x = w.isAlive x) ∧ ∀ x, x ≠ e → x.gen < 65535 → w'.get k x = w.get k x := by
  obtain ⟨s, hl⟩ := hv
  obtain ⟨r, s', g1, gi, g2, g3, g4⟩ := view_insert hr hl he f (now k)
  obtain ⟨c, i, f1, f2, f3, f4, f5⟩ := view_find hr hl g2.1
  refine ⟨c, ?_⟩
  cases c with
  | some c =>
    refine ⟨w, f1, ?_, hr, f1, fun _ => rfl, (fun h => by cases h), fun _ _ => rfl, fun _ => rfl, fun _ _ _ => rfl⟩
    simp only [vGetOrInsert, hl, f5, f2, bind, Except.bind, Option.isSome, if_true]
    rfl
  | none =>
    have hs' : s'.get e = .ok (some f) := by
      rw [← get_of_sto (w := w.put k s') (k := k) (by rw [put_lookup, if_pos rfl]), g4 k e g2.1, if_pos ⟨rfl, rfl⟩]
    refine ⟨w.put k s', f1, ?_, g3, by rw [g4 k e g2.1, if_pos ⟨rfl, rfl⟩]; rfl, (fun h => absurd rfl h),
      fun _ => ⟨r, s, s', hl, by rw [put_lookup, if_pos rfl], .insert g2 g1⟩,
      fun j hj => by unfold Untouched; rw [put_lookup, if_neg hj], fun _ => rfl, fun x hx hxg => ?_⟩
    · simp only [vGetOrInsert, hl, f5, bind, Except.bind, Option.isSome, Bool.false_eq_true, if_false, g1, gi,
        if_true, hs']
      rfl
    · rw [g4 k x hxg, if_neg (fun h => hx h.2)]

/-- C68, dead ids: nothing is returned and no component changed when another entity has a component at that
index; otherwise `f()` is stored for the dead id. -/
theorem C68_get_or_insert_dead {w : World V} {h : List Event} (hr : Reach fl w h) {e : EId}
    (he : e ∈ issued h) (hd : w.isAlive e = false) (k : Nat) (f : V) (hv : ∃ s, lookupK w.stos k = some s) :
    ((∃ x c, x.idx = e.idx ∧ x.gen < 65535 ∧ w.get k x = .ok (some c)) →
      ∃ w', vGetOrInsert now e k f w = .ok (none, w') ∧ ∀ j x, x.gen < 65535 → w'.get j x = w.get j x) ∧
    ((∀ x, x.idx = e.idx → x.gen < 65535 → w.get k x = .ok none) →
      ∃ w', vGetOrInsert now e k f w = .ok (some f, w') ∧ w'.get k e = .ok (some f)) := by
  obtain ⟨s, hl⟩ := hv
  obtain ⟨A, Q, hok⟩ := reach_ok hr
  have heg := (issued_valid hok he).1
  obtain ⟨c, i, f1, f2, f3, f4, f5⟩ := view_find hr hl heg
  have hc : c = none := by
    have := hok.get k heg
    rw [f1] at this
    injection this with this
    rw [this]
    exact hok.look_dead k hd
  subst hc
  obtain ⟨i1, i2⟩ := view_insert_dead hr hl he hd f (now k)
  refine ⟨fun hx => ?_, fun hx => ?_⟩
  · obtain ⟨s', j1, j2⟩ := i1 hx
    refine ⟨w.put k s', ?_, fun j x hxg => ?_⟩
    · simp only [vGetOrInsert, hl, f5, bind, Except.bind, Option.isSome, Bool.false_eq_true, if_false, j1,
        InsertionResult.wasInserted]
    · by_cases hj : j = k
      · subst hj
        rw [get_of_sto (w := w.put j s') (k := j) (by rw [put_lookup, if_pos rfl]), j2 x hxg, get_of_sto hl]
      · unfold World.get
        rw [put_lookup, if_neg hj]
  · obtain ⟨s', j1, j2, _⟩ := i2 hx
    refine ⟨w.put k s', ?_, ?_⟩
    · simp only [vGetOrInsert, hl, f5, bind, Except.bind, Option.isSome, Bool.false_eq_true, if_false, j1,
        InsertionResult.wasInserted, if_true, j2]
    · rw [get_of_sto (w := w.put k s') (k := k) (by rw [put_lookup, if_pos rfl]), j2]

example : ∃ w', vGetOrInsert (fun k => 40 + k) ⟨1, 0⟩ 1 7 demo = .ok (some 7, w') ∧
    w'.get 1 ⟨1, 0⟩ = .ok (some 7) := ⟨_, rfl, rfl⟩
example : vGetOrInsert (fun k => 40 + k) ⟨0, 0⟩ 1 7 demo = .ok (some 20, demo) := rfl

/-- The hypotheses of `C68_get_or_insert_dead`: entity 1 is deleted and its slot reused. -/
example : ∃ (w : World Nat) (h : List Event), Reach demoFlags w h ∧ (⟨1, 0⟩ : EId) ∈ issued h ∧
    w.isAlive ⟨1, 0⟩ = false ∧ w.get 0 ⟨1, 1⟩ = .ok (some 9) ∧
    (∃ w', vGetOrInsert (fun k => 40 + k) ⟨1, 0⟩ 0 7 w = .ok (none, w') ∧ w'.get 0 ⟨1, 1⟩ = .ok (some 9)) ∧
    (∃ w', vGetOrInsert (fun k => 40 + k) ⟨1, 0⟩ 1 7 w = .ok (some 7, w')) :=
  ⟨_, _, .addEntity (cs := [(0, some 9)]) (r := .returned)
    (.deleteEntity (e := ⟨1, 0⟩) (b := true) demo_reach (by decide) rfl) rfl (by unfold Fits; decide),
    by decide, rfl, rfl, ⟨_, rfl, rfl⟩, _, rfl⟩

end Verif

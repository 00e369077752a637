import Verif.Lemmas.EntitiesSpec

/-!
# C03 - C11: entity ids over arbitrary histories

`EntSpec.Reach s h` says that `s` is the store after the history `h` of calls and results
(`Verif/Spec/Entities.lean`). All theorems quantify over all reachable states, hence over all finite
histories.
-/
namespace Verif.Entities
open EntSpec

/-- A concrete history used for the non-vacuity checks: two adds, a delete of a fresh and of a stale
id, an add recycling the slot, a bulk add, a spawn leaving a gap, a clear and one more add. -/
def demo : List Event :=
  [.added ⟨0, 0⟩, .added ⟨1, 0⟩, .deleted ⟨0, 0⟩ true, .deleted ⟨0, 0⟩ false, .added ⟨0, 1⟩,
   .bulkAdded [⟨2, 0⟩, ⟨3, 0⟩], .deleted ⟨3, 0⟩ true, .spawned ⟨6, 4⟩ true, .cleared, .added ⟨0, 2⟩]

/-- The store after `demo`. -/
def demoState : Entities :=
  { data := [⟨0, 2⟩, ⟨2, 1⟩, ⟨3, 1⟩, ⟨4, 2⟩, ⟨5, 1⟩, ⟨6, 1⟩, ⟨EId.maxIndex, 5⟩]
    list := some (6, 1), hook := false, log := [] }

theorem demo_reach : Reach demoState demo := by
  have r := (Reach.init false)
  have r := r.add (e := ⟨0, 0⟩) rfl (by decide)
  have r := r.add (e := ⟨1, 0⟩) rfl (by decide)
  have r := r.delete (b := true) ⟨0, 0⟩ rfl (by decide)
  have r := r.delete (b := false) ⟨0, 0⟩ rfl (by decide)
  have r := r.add (e := ⟨0, 1⟩) rfl (by decide)
  have r := r.bulk (es := [⟨2, 0⟩, ⟨3, 0⟩]) 2 rfl (by decide)
  have r := r.delete (b := true) ⟨3, 0⟩ rfl (by decide)
  have r := r.spawn (b := true) ⟨6, 4⟩ rfl (by decide) (by decide)
  have r := r.clear rfl (by decide) (by decide)
  exact r.add (e := ⟨0, 2⟩) (s' := demoState) rfl (by decide)

/-! ## C03 -/

/-- **C03** No add ever returns an id that was alive at any time before (returned by an earlier add or
spawned), along any history of adds, bulk adds, deletes, spawns and clears of unexhausted stores; in
particular the ids returned by all adds of a history are pairwise distinct. -/
theorem C03_ids_never_reused {s : Entities} {h : List Event} (hr : Reach s h) :
    (∀ h1 ev h2, h = h1 ++ ev :: h2 → ∀ e ∈ ev.created, e ∉ issued h1) ∧ (created h).Nodup := by
  have key : ∀ {s : Entities} {h : List Event}, Reach s h →
      ∀ h1 ev h2, h = h1 ++ ev :: h2 → ∀ e ∈ ev.created, e ∉ issued h1 := by
    intro s h hr h1 ev h2 heq
    obtain ⟨s1, s2, hr1, hs1, hr2⟩ := reach_prefix hr h1 ev h2 heq
    obtain ⟨Q, hi, hb⟩ := reach_inv hr1
    generalize hh : h1 ++ [ev] = h12 at hr2
    intro e he
    -- redo the step from the prefix with its side conditions
    cases hs1 with
    | add hg =>
      have hcap : s2.data.length < EId.maxIndex := by
        obtain ⟨_, hi2, _⟩ := reach_inv hr2; exact hi2.cap
      obtain ⟨Q', _, hef⟩ := generate_effect hi hg hcap
      exact (effect_bounded hi hb hef).2 e he
    | bulk hg =>
      have hcap : s2.data.length < EId.maxIndex := by
        obtain ⟨_, hi2, _⟩ := reach_inv hr2; exact hi2.cap
      obtain ⟨Q', _, hef⟩ := bulk_effect hi hg hcap
      exact (effect_bounded hi hb hef).2 e he
    | delete => simp [Event.created] at he
    | spawn => simp [Event.created] at he
    | clear => simp [Event.created] at he
  refine ⟨key hr, ?_⟩
  have sub : ∀ (h : List Event), ∀ e ∈ created h, e ∈ issued h := by
    intro h e he
    unfold created at he; unfold issued
    rw [List.mem_flatMap] at he ⊢
    obtain ⟨ev, h1, h2⟩ := he
    refine ⟨ev, h1, ?_⟩
    cases ev <;> simp_all [Event.created, Event.issued]
  have hk := key hr
  clear key
  induction hr with
  | init hook => simp [created]
  | @step s h ev s' hr hs hcap hc ih =>
    have hev := hk h ev [] rfl
    have ih' := ih (fun h1 ev' h2 heq => hk h1 ev' (h2 ++ [ev]) (by rw [heq]; simp))
    have : created (h ++ [ev]) = created h ++ ev.created := by simp [created]
    rw [this, List.nodup_append]
    refine ⟨ih', ?_, ?_⟩
    · cases hs with
      | add => simp [Event.created]
      | bulk hb =>
        obtain ⟨Q, hi, _⟩ := reach_inv hr
        obtain ⟨Q', _, hef⟩ := bulk_effect hi hb hcap
        cases hef with
        | bulk n => 
          simp only [Event.created, fresh]
          rw [List.nodup_iff_pairwise_ne, List.pairwise_map]
          have := List.nodup_iff_pairwise_ne.1 (List.nodup_range' (s := s.data.length) (n := n))
          exact this.imp (fun hne heq => hne (by simpa using heq))
      | delete => simp [Event.created]
      | spawn => simp [Event.created]
      | clear => simp [Event.created]
    · intro a ha b hb hab
      subst hab
      exact hev a hb (sub h a ha)

example : Reach demoState demo ∧ created demo = [⟨0, 0⟩, ⟨1, 0⟩, ⟨0, 1⟩, ⟨2, 0⟩, ⟨3, 0⟩, ⟨0, 2⟩] :=
  ⟨demo_reach, by decide⟩

/-- **C03**, one step: whatever happened before, the next add returns an id that was never alive. -/
theorem C03_next_add_is_fresh {s s' : Entities} {h : List Event} {e : EId} (hr : Reach s h)
    (hs : s.generate = .ok (e, s')) (hcap : s'.data.length < EId.maxIndex) :
    e ∉ issued h ∧ s.isAlive e = false ∧ s'.isAlive e = true := by
  have hr' := Reach.step hr (.add hs) hcap (by intro h; cases h)
  have h1 := (C03_ids_never_reused hr').1 h (.added e) [] rfl e (by simp [Event.created])
  obtain ⟨Q, hi, _⟩ := reach_inv hr
  obtain ⟨Q', hi', hef⟩ := generate_effect hi hs hcap
  refine ⟨h1, ?_, ?_⟩
  · rw [← Bool.not_eq_true, hi.isAlive_iff_genAt]
    rintro ⟨hq, hg⟩
    cases hef with
    | addNew => have := genAt_lt hg; simp at this
    | addOld hQ => rw [hQ] at hq; simp at hq
  · rw [hi'.isAlive_iff_genAt]
    cases hef with
    | addNew _ hg => exact ⟨by simp, hg⟩
    | addOld hQ hg ho =>
      refine ⟨?_, by rw [ho]; exact hg⟩
      have := hi.nodup; rw [hQ, List.nodup_cons] at this; exact this.1

example : ∃ e s', demoState.generate = .ok (e, s') ∧ s'.data.length < EId.maxIndex :=
  ⟨⟨1, 1⟩, _, rfl, by decide⟩

/-! ## C04 -/

/-- **C04** (partial: no delete may be applied to an id of generation 65533 or more, see
`C04_fails`). After any history `is_alive` is exactly "made alive and not ended since", and `delete`
returned `true` exactly on the ids that were alive at that point. -/
theorem C04_alive_exact_partial {s : Entities} {h : List Event} (hr : Reach s h)
    (hn : NoExhaustedDelete h) :
    (∀ e, s.isAlive e = true ↔ e ∈ alive h) ∧
    (∀ h1 e b h2, h = h1 ++ .deleted e b :: h2 → (b = true ↔ e ∈ alive h1)) := by
  refine ⟨(reach_spec hr hn).2.2, ?_⟩
  intro h1 e b h2 heq
  obtain ⟨s1, s2, hr1, hs1, _⟩ := reach_prefix hr h1 _ h2 heq
  have hn1 : NoExhaustedDelete h1 := fun e' b' hm => hn e' b' (by rw [heq]; simp [hm])
  rw [← (reach_spec hr1 hn1).2.2 e]
  cases hs1 with
  | delete hd =>
    obtain ⟨Q, hi, _⟩ := reach_inv hr1
    obtain ⟨Q', _, hef⟩ := delete_effect hi hd
    cases hef with
    | deleteDead ha => simp [ha]
    | deleteExhausted ha => simp [ha]
    | delete ha => simp [ha]

/-- **C04**, every history: `is_alive` is exactly "made alive and not ended since", where deleting an id of generation 65533 or more does
not end it; and every delete returned whether the id was alive. -/
theorem C04_alive_exact {s : Entities} {h : List Event} (hr : Reach s h) :
    (∀ e, s.isAlive e = true ↔ e ∈ lasting h) ∧
    (∀ h1 e b h2, h = h1 ++ .deleted e b :: h2 → (b = true ↔ e ∈ lasting h1)) := by
  refine ⟨(reach_lasting hr).2.2, ?_⟩
  intro h1 e b h2 heq
  obtain ⟨s1, s2, hr1, hs1, _⟩ := reach_prefix hr h1 _ h2 heq
  rw [← (reach_lasting hr1).2.2 e]
  cases hs1 with
  | delete hd =>
    obtain ⟨Q, hi, _⟩ := reach_inv hr1
    obtain ⟨Q', _, hef⟩ := delete_effect hi hd
    cases hef with
    | deleteDead ha => simp [ha]
    | deleteExhausted ha => simp [ha]
    | delete ha => simp [ha]

/-- A history that deletes an exhausted id, twice. -/
example : ∃ s, Reach s [.spawned ⟨0, 65533⟩ true, .deleted ⟨0, 65533⟩ true, .deleted ⟨0, 65533⟩ true, .added ⟨1, 0⟩] ∧
    lasting [.spawned ⟨0, 65533⟩ true, .deleted ⟨0, 65533⟩ true, .deleted ⟨0, 65533⟩ true, .added ⟨1, 0⟩] = [⟨0, 65533⟩, ⟨1, 0⟩] ∧
    slots [.spawned ⟨0, 65533⟩ true, .deleted ⟨0, 65533⟩ true, .deleted ⟨0, 65533⟩ true, .added ⟨1, 0⟩] = ⟨2, []⟩ := by
  have r1 := (Reach.init false).spawn (b := true) ⟨0, 65533⟩ rfl (by decide) (by decide)
  have r2 := r1.delete (b := true) ⟨0, 65533⟩ rfl (by decide)
  have r3 := r2.delete (b := true) ⟨0, 65533⟩ rfl (by decide)
  have r4 := r3.add (e := ⟨1, 0⟩) rfl (by decide)
  exact ⟨_, r4, by decide, by decide⟩

example : Reach demoState demo ∧ NoExhaustedDelete demo ∧ alive demo = [⟨0, 2⟩] := by
  refine ⟨demo_reach, ?_, by decide⟩
  intro e b hm
  simp [demo] at hm
  rcases hm with h | h | h <;> (obtain ⟨rfl, _⟩ := h; decide)

/-- The specification `alive` in the words of the property, for histories of adds and deletes: `e` is
alive iff some add returned it and it was not deleted afterwards. -/
theorem C04_alive_spec_words {h : List Event}
    (hk : ∀ ev ∈ h, (∃ e, ev = .added e) ∨ (∃ es, ev = .bulkAdded es) ∨ ∃ e b, ev = .deleted e b)
    (e : EId) :
    e ∈ alive h ↔ ∃ h1 ev h2, h = h1 ++ ev :: h2 ∧ e ∈ ev.created ∧ ∀ b, .deleted e b ∉ h2 := by
  have key : ∀ (r : List Event), (∀ ev ∈ r, (∃ e, ev = .added e) ∨ (∃ es, ev = .bulkAdded es) ∨
      ∃ e b, ev = .deleted e b) → (e ∈ alive r.reverse ↔
      ∃ h1 ev h2, r.reverse = h1 ++ ev :: h2 ∧ e ∈ ev.created ∧ ∀ b, .deleted e b ∉ h2) := by
    intro r
    induction r with
    | nil => intro _; simp [alive]
    | cons ev r ih =>
      intro hk
      have ih' := ih (fun ev' hm => hk ev' (List.mem_cons_of_mem _ hm))
      rw [List.reverse_cons, alive_snoc]
      constructor
      · intro hm
        have old : e ∈ alive r.reverse → (∀ b, Event.deleted e b ≠ ev) → 
            ∃ h1 ev' h2, r.reverse ++ [ev] = h1 ++ ev' :: h2 ∧ e ∈ ev'.created ∧
              ∀ b, .deleted e b ∉ h2 := by
          intro h1 h2
          obtain ⟨a, b, c, h3, h4, h5⟩ := ih'.1 h1
          refine ⟨a, b, c ++ [ev], by rw [h3]; simp, h4, ?_⟩
          intro b'
          simp only [List.mem_append, List.mem_singleton, not_or]
          exact ⟨h5 b', h2 b'⟩
        rcases hk ev List.mem_cons_self with ⟨x, rfl⟩ | ⟨es, rfl⟩ | ⟨x, b, rfl⟩
        · simp only [aliveStep, List.mem_append, List.mem_singleton] at hm
          rcases hm with hm | rfl
          · exact old hm (by simp)
          · exact ⟨r.reverse, .added e, [], rfl, by simp [Event.created], by simp⟩
        · simp only [aliveStep, List.mem_append] at hm
          rcases hm with hm | hm
          · exact old hm (by simp)
          · exact ⟨r.reverse, .bulkAdded es, [], rfl, by simpa [Event.created] using hm, by simp⟩
        · simp only [aliveStep, List.mem_filter] at hm
          refine old hm.1 ?_
          intro b' heq
          cases heq
          simp at hm
      · rintro ⟨h1, ev', h2, heq, hc, hd⟩
        rcases List.eq_nil_or_concat h2 with rfl | ⟨h3, x, rfl⟩
        · have := List.append_inj' heq rfl
          obtain ⟨_, h4⟩ := this
          cases h4
          rcases hk ev List.mem_cons_self with ⟨y, rfl⟩ | ⟨es, rfl⟩ | ⟨y, b, rfl⟩
          · simp [Event.created] at hc; simp [aliveStep, hc]
          · simp [Event.created] at hc; simp [aliveStep, hc]
          · simp [Event.created] at hc
        · rw [List.concat_eq_append] at heq hd
          rw [← List.cons_append, ← List.append_assoc] at heq
          obtain ⟨h5, h6⟩ := List.append_inj' heq rfl
          cases h6
          have hm : e ∈ alive r.reverse := ih'.2 ⟨h1, ev', h3, h5, hc, fun b hb => hd b (by simp [hb])⟩
          rcases hk ev List.mem_cons_self with ⟨y, rfl⟩ | ⟨es, rfl⟩ | ⟨y, b, rfl⟩
          · simp [aliveStep, hm]
          · simp [aliveStep, hm]
          · simp only [aliveStep, List.mem_filter]
            refine ⟨hm, ?_⟩
            simp only [decide_not, Bool.not_eq_true', decide_eq_false_iff_not]
            rintro rfl
            exact hd b (by simp)
  have := key h.reverse (by simpa using hk)
  rwa [List.reverse_reverse] at this

example : ∀ ev ∈ demo.take 5, (∃ e, ev = .added e) ∨ (∃ es, ev = .bulkAdded es) ∨
    ∃ e b, ev = .deleted e b := by
  intro ev hm
  simp [demo] at hm
  rcases hm with rfl | rfl | rfl | rfl | rfl <;> simp

/-- The store holding one slot that is alive in generation `k`. -/
private def oneSlot (k : Nat) : Entities := { Entities.new with data := [⟨0, k⟩] }

/-- Deleting and re-adding the only entity `k` times reaches generation `k`. -/
private theorem oneSlot_reach : ∀ k, k ≤ 65533 → ∃ h, Reach (oneSlot k) h ∧
    ∀ ev ∈ h, (∃ e, ev = .added e) ∨ ∃ e b, ev = .deleted e b := by
  intro k
  induction k with
  | zero =>
    intro _
    refine ⟨[.added ⟨0, 0⟩], ?_, by simp⟩
    exact (Reach.init false).add (s' := oneSlot 0) rfl (by decide)
  | succ k ih =>
    intro hk
    obtain ⟨h, hr, hh⟩ := ih (by omega)
    obtain ⟨Q, hi, _⟩ := reach_inv hr
    have ha : (oneSlot k).isAlive ⟨0, k⟩ = true := by simp [oneSlot, isAlive]
    have hb : (⟨0, k⟩ : EId).bumpGen = some ⟨0, k + 1⟩ := by
      unfold EId.bumpGen; rw [if_pos]; unfold EId.MAX_GEN; show k < 65533; omega
    have hdel : (oneSlot k).deleteUnchecked ⟨0, k⟩ = .ok (true,
        { Entities.new with data := [⟨EId.maxIndex, k + 1⟩], list := some (0, 0) }) := by
      unfold deleteUnchecked
      rw [ha]
      simp only [if_true, oneSlot, getU, List.getElem?_cons_zero, bind, Except.bind, hb,
        Entities.new, List.set_cons_zero]
      rw [setIdxU_ok (e := ⟨0, k + 1⟩) rfl maxIndex_lt]
      rfl
    have hr1 := hr.delete _ hdel (by simp; decide)
    have hadd : generate { Entities.new with data := [⟨EId.maxIndex, k + 1⟩], list := some (0, 0) } =
        .ok (⟨0, k + 1⟩, oneSlot (k + 1)) := by
      unfold generate
      simp only [if_true, bind, Except.bind]
      rw [setIdxU_ok (e := ⟨EId.maxIndex, k + 1⟩) rfl (by decide)]
      rfl
    have hr2 := hr1.add hadd (by simp [oneSlot]; decide)
    refine ⟨_, hr2, ?_⟩
    intro ev hm
    simp only [List.mem_append, List.mem_singleton] at hm
    rcases hm with (hm | rfl) | rfl
    · exact hh ev hm
    · simp
    · simp

/-- **C04 fails** at the end of a slot's generations: there is a history made of single adds and
deletes only, ending with a delete that returned `true`, after which the deleted id is still alive. -/
theorem C04_fails : ∃ s h e, Reach s (h ++ [.deleted e true]) ∧
    (∀ ev ∈ h, (∃ e, ev = .added e) ∨ ∃ e b, ev = .deleted e b) ∧ s.isAlive e = true := by
  obtain ⟨h, hr, hh⟩ := oneSlot_reach 65533 (by omega)
  have hd : (oneSlot 65533).deleteUnchecked ⟨0, 65533⟩ = .ok (true, oneSlot 65533) := by decide
  exact ⟨_, h, ⟨0, 65533⟩, Reach.step hr (.delete hd) (by decide) (by intro h; cases h), hh, by decide⟩

/-- Deleting any id other than `e` never changes whether `e` is alive (also for exhausted slots and
also when the delete is refused). -/
theorem C04_delete_other_unaffected {s s' : Entities} {h : List Event} {d e : EId} {b : Bool}
    (hr : Reach s h) (hs : s.deleteUnchecked d = .ok (b, s')) (hne : e ≠ d) :
    s'.isAlive e = s.isAlive e := by
  obtain ⟨Q, hi, _⟩ := reach_inv hr
  obtain ⟨Q', hi', hef⟩ := delete_effect hi hs
  cases hef with
  | deleteDead => rfl
  | deleteExhausted => simp
  | delete ha hg hg' ho =>
    by_cases hidx : e.idx = d.idx
    · have h1 : s'.isAlive e = false := by
        rw [← Bool.not_eq_true, hi'.isAlive_iff_genAt]
        rintro ⟨h1, _⟩; exact h1 (by simp [hidx])
      have h2 : s.isAlive e = false := by
        rw [← Bool.not_eq_true, hi.isAlive_iff_genAt]
        rintro ⟨_, h3⟩
        have h4 := ((hi.isAlive_iff_genAt d).1 ha).2
        rw [hidx, h4] at h3
        simp at h3
        exact hne (by cases e; cases d; simp_all)
      rw [h1, h2]
    · refine alive_congr hi hi' ?_ (ho _ hidx)
      simp [hidx]

example : demoState.deleteUnchecked ⟨0, 2⟩ = .ok (true,
    { demoState with
      data := [⟨EId.maxIndex, 3⟩, ⟨2, 1⟩, ⟨3, 1⟩, ⟨4, 2⟩, ⟨5, 1⟩, ⟨6, 1⟩, ⟨0, 5⟩]
      list := some (0, 1) }) := by decide

/-! ## C05 -/

theorem iter_alive (s : Entities) :
    s.iter.Pairwise (fun a b => a.idx < b.idx) ∧ ∀ e, e ∈ s.iter ↔ s.isAlive e = true := by
  constructor
  · unfold iter
    have key : ∀ (d : List EId) (k : Nat),
        ((d.zipIdx k).filterMap fun (e, i) => if i = e.idx then some e else none).Pairwise
          (fun a b => a.idx < b.idx) ∧
        ∀ e ∈ ((d.zipIdx k).filterMap fun (e, i) => if i = e.idx then some e else none),
          k ≤ e.idx := by
      intro d
      induction d with
      | nil => intro k; simp
      | cons x d ih =>
        intro k
        obtain ⟨h1, h2⟩ := ih (k + 1)
        rw [List.zipIdx_cons]
        simp only [List.filterMap_cons]
        split
        · exact ⟨h1, fun e he => Nat.le_of_succ_le (h2 e he)⟩
        · rename_i y hy
          split at hy
          · rename_i hk
            cases hy
            refine ⟨List.Pairwise.cons ?_ h1, ?_⟩
            · intro e he; have := h2 e he; omega
            · intro e he
              rcases List.mem_cons.1 he with rfl | he
              · omega
              · exact Nat.le_of_succ_le (h2 e he)
          · cases hy
    exact (key s.data 0).1
  · intro e
    rw [Inv.isAlive_iff]
    unfold iter
    rw [List.mem_filterMap]
    constructor
    · rintro ⟨⟨x, i⟩, hm, hx⟩
      simp only at hx
      split at hx
      · rename_i hi
        cases hx
        rw [List.mem_zipIdx_iff_getElem?] at hm
        rw [← hi]; exact hm
      · cases hx
    · intro he
      refine ⟨(e, e.idx), ?_, by simp⟩
      rw [List.mem_zipIdx_iff_getElem?]; exact he

/-- **C05** Iterating yields exactly the alive ids, each once, in increasing index order. -/
theorem C05_iter_alive {s : Entities} {h : List Event} (_hr : Reach s h) :
    s.iter.Pairwise (fun a b => a.idx < b.idx) ∧ ∀ e, e ∈ s.iter ↔ s.isAlive e = true :=
  iter_alive s

example : demoState.iter = [⟨0, 2⟩] := by decide

/-- **C05** with the specification of liveness, as in `C04_alive_exact`. -/
theorem C05_iter_lasting {s : Entities} {h : List Event} (hr : Reach s h) : ∀ e, e ∈ s.iter ↔ e ∈ lasting h := by
  intro e
  rw [(C05_iter_alive hr).2, (reach_lasting hr).2.2]

/-- **C05** with the specification of liveness: same restriction as `C04_alive_exact_partial`. -/
theorem C05_iter_spec_partial {s : Entities} {h : List Event} (hr : Reach s h)
    (hn : NoExhaustedDelete h) : ∀ e, e ∈ s.iter ↔ e ∈ alive h := by
  intro e
  rw [(C05_iter_alive hr).2, (C04_alive_exact_partial hr hn).1]

/-! ## C06 -/

/-- **C06** (partial: clearing a store with an exhausted slot is excluded, see `C06_fails`). From every
reachable state no call touches memory out of bounds, panics or loops: adds and bulk adds succeed as
long as there is a free index, deletes always return, spawning any id below the dead generation
returns, and so does clearing a store none of whose slots is exhausted. -/
theorem C06_total_partial {s : Entities} {h : List Event} (hr : Reach s h) :
    (∃ r, s.generate = .ok r) ∧
    (∀ n, s.data.length + n ≤ EId.maxIndex → ∃ r, s.bulkGenerate n = .ok r) ∧
    (∀ e, ∃ r, s.deleteUnchecked e = .ok r) ∧
    (∀ e, e.gen < 65535 → e.idx + 1 < EId.maxIndex → ∃ r, s.spawn e = .ok r) ∧
    (s.NotExhausted → ∃ r, s.clear = .ok r) := by
  obtain ⟨Q, hi, _⟩ := reach_inv hr
  refine ⟨?_, ?_, ?_, ?_, ?_⟩
  · cases Q with
    | nil => exact ⟨_, generate_nil hi⟩
    | cons a Q => obtain ⟨o, _, h⟩ := generate_cons hi; exact ⟨_, h⟩
  · intro n hn; exact ⟨_, bulkGenerate_ok hn⟩
  · intro e
    cases ha : s.isAlive e with
    | false => exact ⟨_, deleteUnchecked_dead ha⟩
    | true =>
      rcases Nat.lt_or_ge e.gen 65533 with hg | hg
      · exact ⟨_, deleteUnchecked_alive hi ha hg⟩
      · exact ⟨_, deleteUnchecked_exhausted ha hg⟩
  · intro e hg hc
    obtain ⟨b, s', _, h, _⟩ := spawn_total hi hg hc
    exact ⟨_, h⟩
  · intro hne
    obtain ⟨s', h, _⟩ := clear_ok hi hne
    exact ⟨_, h⟩

example : Reach demoState demo ∧ demoState.NotExhausted ∧ demoState.list = some (6, 1) :=
  ⟨demo_reach, by decide, rfl⟩

/-- **C06 fails** once a slot has used up its generations and the store is cleared: spawning `0.0` and
`1.65533`, clearing, and adding twice reads out of bounds in the second add. -/
theorem C06_fails : ∃ s h s1 e1 s2, Reach s h ∧ s.clear = .ok s1 ∧ s1.generate = .ok (e1, s2) ∧
    s2.generate = .error .oob := by
  have r1 := (Reach.init false).spawn (b := true) ⟨0, 0⟩ rfl (by decide) (by decide)
  have r2 := r1.spawn (b := true) ⟨1, 65533⟩ rfl (by decide) (by decide)
  exact ⟨_, _, _, _, _, r2, rfl, rfl, rfl⟩

/-- Clearing a store all of whose slots are past generation 65533 panics. -/
theorem C06_clear_panics_fails : ∃ s h, Reach s h ∧ s.clear = .error .panic := by
  have r1 := (Reach.init false).spawn (b := true) ⟨0, 65534⟩ rfl (by decide) (by decide)
  exact ⟨_, _, r1, rfl⟩

/-! ## C07 -/

/-- **C07** An add takes the slot that has been recyclable for the longest time; only when there is none it allocates the next new slot,
with generation 0; a bulk add allocates consecutive new slots; and every slot is either alive or recyclable. A slot without a further
generation is never recyclable. -/
theorem C07_slots_recycled_fifo {s : Entities} {h : List Event} (hr : Reach s h) :
    (∀ e s', s.generate = .ok (e, s') →
      ((slots h).queue = [] → e = ⟨(slots h).count, 0⟩ ∧ s'.data.length = (slots h).count + 1) ∧
      (∀ i q, (slots h).queue = i :: q → e.idx = i ∧ s'.data.length = (slots h).count)) ∧
    s.data.length = (slots h).count ∧
    s.iter.length + (slots h).queue.length = (slots h).count := by
  obtain ⟨hi, hlen, _⟩ := reach_lasting hr
  refine ⟨?_, hlen, ?_⟩
  · intro e s' hs
    constructor
    · intro hq
      rw [hq] at hi
      rw [generate_nil hi] at hs
      simp only [Except.ok.injEq, Prod.mk.injEq] at hs
      rw [← hs.1, ← hs.2, ← hlen]; simp
    · intro i q hq
      rw [hq] at hi
      obtain ⟨o, ho, hg⟩ := generate_cons hi
      rw [hg] at hs
      simp only [Except.ok.injEq, Prod.mk.injEq] at hs
      rw [← hs.1, ← hs.2, ← hlen]; simp
  · rw [iter_length hi, hlen]

example : (slots demo).queue = [1, 2, 3, 4, 5, 6] ∧ (slots demo).count = 7 := by decide

/-! ## C08 -/

theorem addEach_total {C : Type} {s : Entities} {Q : List Nat} (h : Inv s Q) (cs : List C)
    (hcap : s.data.length + cs.length < EId.maxIndex) :
    ∃ calls s' Q', addEach s cs = .ok (calls, s') ∧ calls.map (·.2) = cs ∧ Inv s' Q' := by
  induction cs generalizing s Q with
  | nil => exact ⟨[], s, Q, rfl, rfl, h⟩
  | cons c cs ih =>
    simp at hcap
    have : ∃ e s1 Q1, s.generate = .ok (e, s1) ∧ Inv s1 Q1 ∧ s1.data.length ≤ s.data.length + 1 := by
      cases Q with
      | nil => exact ⟨_, _, _, generate_nil h, generate_nil_inv h (by omega), by simp⟩
      | cons a Q =>
        obtain ⟨o, ho, hg⟩ := generate_cons h
        exact ⟨_, _, _, hg, generate_cons_inv h ho, by simp⟩
    obtain ⟨e, s1, Q1, h1, h2, h3⟩ := this
    obtain ⟨calls, s', Q', h4, h5, h6⟩ := ih h2 (by omega)
    refine ⟨(e, c) :: calls, s', Q', ?_, by simp [h5], h6⟩
    unfold addEach
    simp only [h1, h4, bind, Except.bind]

/-- **C08** (partial: the iterator's lower size hint must be its length, as for any exact-size
iterator; see `C08_fails`). `bulk_add_entity` returns one fresh alive id per component, gives the
`i`-th component to the `i`-th id and leaves all other ids as they were. -/
theorem C08_bulk_add_partial {C : Type} {s : Entities} {h : List Event} (hr : Reach s h)
    (comps : List C) (hcap : s.data.length + comps.length < EId.maxIndex) :
    ∃ ids calls s', s.bulkAddEntity comps.length comps = .ok (ids, calls, s') ∧
      ids.length = comps.length ∧ calls = ids.zip comps ∧ ids.Nodup ∧
      (∀ e ∈ ids, e ∉ issued h ∧ s.isAlive e = false ∧ s'.isAlive e = true) ∧
      (∀ e, e ∉ ids → s'.isAlive e = s.isAlive e) ∧
      Reach s' (h ++ [.bulkAdded ids]) := by
  obtain ⟨Q, hi, hb⟩ := reach_inv hr
  have hbg := bulkGenerate_ok (Nat.le_of_lt hcap)
  have hinv := bulkGenerate_inv hi hcap
  have hr' : Reach _ (h ++ [.bulkAdded (fresh s.data.length comps.length)]) :=
    Reach.step hr (.bulk hbg) hinv.cap (by intro h; cases h)
  have hno := (C03_ids_never_reused hr')
  obtain ⟨Q2, hi2, hef⟩ := bulk_effect hi hbg hinv.cap
  refine ⟨_, _, _, ?_, ?_, rfl, ?_, ?_, ?_, hr'⟩
  · unfold bulkAddEntity
    rw [hbg]
    simp only [bind, Except.bind, fresh_length]
    rw [List.drop_eq_nil_of_le (by omega)]
    simp only [addEach, List.append_nil, List.drop_append_of_le_length (Nat.le_refl _), List.drop_length,
      List.nil_append]
  · simp
  · have := hno.2
    have hc : created (h ++ [.bulkAdded (fresh s.data.length comps.length)]) =
        created h ++ fresh s.data.length comps.length := by simp [created, Event.created]
    rw [hc, List.nodup_append] at this
    exact this.2.1
  · intro e he
    refine ⟨hno.1 h _ [] rfl e (by simpa [Event.created] using he), ?_, ?_⟩
    · rw [← Bool.not_eq_true, hi.isAlive_iff_genAt]
      rintro ⟨_, hg⟩
      have := genAt_lt hg
      have := (mem_fresh.1 he).1
      omega
    · rw [Inv.isAlive_iff]
      obtain ⟨h1, h2, h3⟩ := mem_fresh.1 he
      simp only
      rw [append_fresh_getElem?]
      right; refine ⟨h1, h2, ?_⟩
      cases e; simp_all
  · intro e he
    rw [Bool.eq_iff_iff, Inv.isAlive_iff, Inv.isAlive_iff]
    simp only
    rw [append_fresh_getElem?]
    constructor
    · rintro (h1 | ⟨h1, h2, h3⟩)
      · exact h1
      · exact absurd (mem_fresh.2 ⟨h1, h2, by rw [h3]⟩) he
    · exact fun h1 => .inl h1

example : ∃ s', demoState.bulkAddEntity 2 ["a", "b"] =
    .ok ([⟨7, 0⟩, ⟨8, 0⟩], [(⟨7, 0⟩, "a"), (⟨8, 0⟩, "b")], s') := ⟨_, rfl⟩

theorem map_snd_zip {α β} (l1 : List α) (l2 : List β) :
    (l1.zip l2).map (·.2) = l2.take l1.length := by
  induction l1 generalizing l2 with
  | nil => simp
  | cons a l1 ih => cases l2 with
    | nil => simp
    | cons b l2 => simp [ih]

/-- **C08 fails** for every iterator whose lower size hint is smaller than its length (a legal hint,
for instance any `filter`): from every reachable state the component at the position of the hint is
dropped, so that the calls made are those for the other components only. -/
theorem C08_fails {C : Type} {s : Entities} {h : List Event} (hr : Reach s h) (comps : List C)
    (hint : Nat) (hlt : hint < comps.length)
    (hcap : s.data.length + comps.length < EId.maxIndex) :
    ∃ ids calls s', s.bulkAddEntity hint comps = .ok (ids, calls, s') ∧
      calls.map (·.2) = comps.take hint ++ comps.drop (hint + 1) ∧
      calls.length + 1 = comps.length := by
  obtain ⟨Q, hi, _⟩ := reach_inv hr
  have hbg := bulkGenerate_ok (s := s) (n := hint) (by omega)
  have hinv := bulkGenerate_inv hi (n := hint) (by omega)
  obtain ⟨calls, s', Q', h1, h2, _⟩ := addEach_total hinv (comps.drop (hint + 1))
    (by simp; omega)
  refine ⟨s'.data.drop s.data.length, (fresh s.data.length hint).zip comps ++ calls, s', ?_, ?_, ?_⟩
  · unfold bulkAddEntity
    rw [hbg]
    simp only [bind, Except.bind, fresh_length, h1]
  · rw [List.map_append, h2, map_snd_zip, fresh_length]
  · have := congrArg List.length h2
    simp at this
    simp; omega

example : ∃ s', demoState.bulkAddEntity 0 ["a", "b", "c"] =
    .ok ([], [(⟨1, 1⟩, "b"), (⟨2, 1⟩, "c")], s') := ⟨_, rfl⟩

/-! ## C09 -/

/-- **C09** (partial: ids of generation 65535 are excluded, see `C09_dead_generation_fails`). Spawning
`e` always returns. If it returns `true`, `e` is alive, it is the only alive id with its index, all ids
with another index are alive or not as before, the store is again a reachable one (so that all the
other theorems apply to it, in particular `C03_next_add_is_fresh` and `C06_total_partial`). If it
returns `false` nothing changed. -/
theorem C09_spawn_partial {s : Entities} {h : List Event} (hr : Reach s h) (e : EId)
    (hg : e.gen < 65535) (hcap : e.idx + 1 < EId.maxIndex) :
    ∃ b s', s.spawn e = .ok (b, s') ∧ Reach s' (h ++ [.spawned e b]) ∧
      (b = true → s'.isAlive e = true ∧ (∀ x, x.idx = e.idx → s'.isAlive x = true → x = e) ∧
        ∀ x, x.idx ≠ e.idx → s'.isAlive x = s.isAlive x) ∧
      (b = false → s' = s) := by
  obtain ⟨Q, hi, _⟩ := reach_inv hr
  obtain ⟨b, s', Q', hs, hi', hef⟩ := spawn_total hi hg hcap
  have hmask := maxIndex_lt
  have hw : e.WF := ⟨by omega, by omega⟩
  refine ⟨b, s', hs, hr.spawn e hs hi'.cap hw, ?_, ?_⟩
  · rintro rfl
    cases hef with
    | spawned hsp =>
      have hal : s'.isAlive e = true := by
        rw [hsp.inv.isAlive_iff_genAt]
        refine ⟨?_, hsp.at_⟩
        rw [hsp.queue, List.mem_append, List.mem_range']
        rintro (h1 | ⟨i, h1, h2⟩)
        · exact (List.Nodup.not_mem_erase hi.nodup) h1
        · omega
      refine ⟨hal, ?_, ?_⟩
      · intro x hx hxa
        rw [Inv.isAlive_iff] at hal hxa
        rw [hx, hal] at hxa
        simpa using hxa.symm
      · intro x hx
        by_cases hlt : x.idx < s.data.length
        · refine alive_congr hi hsp.inv ?_ (hsp.old _ hlt hx)
          rw [hsp.queue, List.mem_append, List.mem_erase_of_ne hx, List.mem_range']
          constructor
          · rintro (h1 | ⟨i, h1, h2⟩)
            · exact h1
            · omega
          · exact fun h1 => .inl h1
        · have h1 : s.isAlive x = false := by
            rw [← Bool.not_eq_true, hi.isAlive_iff_genAt]
            rintro ⟨_, h2⟩; exact hlt (genAt_lt h2)
          have h2 : s'.isAlive x = false := by
            rw [← Bool.not_eq_true, hsp.inv.isAlive_iff_genAt]
            rintro ⟨h2, h3⟩
            by_cases hlt' : x.idx < e.idx
            · apply h2
              rw [hsp.queue, List.mem_append, List.mem_range']
              exact .inr ⟨x.idx - s.data.length, by omega, by omega⟩
            · have h4 := genAt_lt h3
              rw [hsp.len] at h4
              omega
          rw [h1, h2]
  · rintro rfl
    cases hef with
    | spawnRefused => rfl

example : ∃ s', demoState.spawn ⟨3, 0⟩ = .ok (false, demoState) ∧ 
    demoState.spawn ⟨3, 7⟩ = .ok (true, s') ∧ s'.isAlive ⟨3, 7⟩ = true :=
  ⟨_, by decide, rfl, by decide⟩

/-- When `spawn` is refused: exactly when the requested slot exists and has moved past the requested
generation, that is when it is alive with a greater generation, or recyclable and no longer able to
yield the generation after the requested one (stated through the id the next recycling of that slot
would return, `x`). -/
theorem C09_spawn_refused_iff {s : Entities} {h : List Event} (hr : Reach s h) (e : EId)
    (hg : e.gen < 65535) (hcap : e.idx + 1 < EId.maxIndex) :
    (∃ s', s.spawn e = .ok (false, s')) ↔
      (∃ x, s.isAlive x = true ∧ x.idx = e.idx ∧ e.gen < x.gen) ∨
      (∃ x ∈ s.data[e.idx]?, s.isAlive x = false ∧ e.gen + 1 < x.gen) := by
  obtain ⟨Q, hi, _⟩ := reach_inv hr
  rcases Nat.lt_or_ge e.idx s.data.length with hlt | hge
  · obtain ⟨o, ho⟩ : ∃ o, s.data[e.idx]? = some o := ⟨_, List.getElem?_eq_getElem hlt⟩
    have alive_o : ∀ x, s.isAlive x = true → x.idx = e.idx → x = o := by
      intro x hx hxe
      rw [Inv.isAlive_iff, hxe, ho] at hx
      simpa using hx.symm
    cases ha : s.isAlive o with
    | true =>
      rw [spawn_alive ho ha]
      have hoi : o.idx = e.idx := by
        by_cases h1 : o.idx = e.idx
        · exact h1
        · exfalso
          have h2 := (hi.mem_iff_dead ho)
          have h3 : e.idx ∈ Q := Classical.byContradiction fun hq => h1 (hi.own _ _ ho hq)
          rw [h2.1 h3] at ha; cases ha
      split
      · rename_i hle
        simp only [Except.ok.injEq, Prod.mk.injEq, Bool.true_eq_false, false_and, exists_false,
          false_iff, not_or, not_exists]
        refine ⟨?_, ?_⟩
        · rintro x ⟨h1, h2, h3⟩
          have := alive_o x h1 h2; subst this; omega
        · rintro x ⟨h1, h2, h3⟩
          rw [ho] at h1; cases h1; rw [ha] at h2; cases h2
      · rename_i hle
        simp only [Except.ok.injEq, Prod.mk.injEq, true_and, exists_eq', true_iff]
        exact .inl ⟨o, ha, hoi, by omega⟩
    | false =>
      have noal : ¬ ∃ x, s.isAlive x = true ∧ x.idx = e.idx ∧ e.gen < x.gen := by
        rintro ⟨x, h1, h2, _⟩
        have := alive_o x h1 h2; subst this; rw [ha] at h1; cases h1
      by_cases hgen : o.gen ≤ e.gen + 1
      · obtain ⟨s', hs, _⟩ := spawn_dead hi ho ha hg hgen
        rw [hs]
        simp only [Except.ok.injEq, Prod.mk.injEq, Bool.true_eq_false, false_and, exists_false,
          false_iff, not_or]
        refine ⟨noal, ?_⟩
        rintro ⟨x, h1, _, h3⟩
        rw [ho] at h1; cases h1; omega
      · rw [spawn_dead_refused ho ha hg hgen]
        simp only [Except.ok.injEq, Prod.mk.injEq, true_and, exists_eq', true_iff]
        exact .inr ⟨o, ho, ha, by omega⟩
  · obtain ⟨s', hs, _⟩ := spawn_beyond hi hge (by omega) hcap
    rw [hs]
    simp only [Except.ok.injEq, Prod.mk.injEq, Bool.true_eq_false, false_and, exists_false,
      false_iff, not_or]
    refine ⟨?_, ?_⟩
    · rintro ⟨x, h1, h2, _⟩
      have := lt_of_getElem?_some ((Inv.isAlive_iff s x).1 h1)
      omega
    · rintro ⟨x, h1, _⟩
      rw [List.getElem?_eq_none hge] at h1; cases h1

/-- **C09 fails** for generation 65535 on a recyclable slot: `gen + 1` overflows. -/
theorem C09_dead_generation_fails : ∃ s h, Reach s h ∧ EId.WF ⟨0, 65535⟩ ∧
    s.spawn ⟨0, 65535⟩ = .error .panic := by
  have r1 := (Reach.init false).add (e := ⟨0, 0⟩) rfl (by decide)
  have r2 := r1.delete (b := true) ⟨0, 0⟩ rfl (by decide)
  exact ⟨_, _, r2, by decide, rfl⟩

/-! ## C10 -/

theorem seg_next_mem {d : List EId} {Q : List Nat} {t i : Nat} {x : EId} (h : Seg d Q t)
    (hi : i ∈ Q) (hx : d[i]? = some x) : x.idx ∈ Q ∨ x.idx = t := by
  induction Q with
  | nil => cases hi
  | cons a Q ih =>
    simp only [Seg] at h
    rcases List.mem_cons.1 hi with rfl | hi
    · obtain ⟨⟨g, hg⟩, _⟩ := h
      rw [hg] at hx; cases hx
      cases Q with
      | nil => exact .inr rfl
      | cons b Q => exact .inl (by simp)
    · rcases ih h.2 hi with h1 | h1
      · exact .inl (List.mem_cons_of_mem _ h1)
      · exact .inr h1

theorem count_alive {s : Entities} {Q : List Nat} (h : Inv s Q) {e : EId}
    (he : s.isAlive e = true) : s.data.count e = 1 := by
  have hm := (Inv.isAlive_iff s e).1 he
  have key : ∀ (d : List EId) (k : Nat), (∀ j, d[j]? = some e → k + j = e.idx) → d.count e ≤ 1 := by
    intro d
    induction d with
    | nil => intro k _; simp
    | cons x d ih =>
      intro k hj
      by_cases hx : x = e
      · subst hx
        rw [List.count_cons_self]
        have h0 := hj 0 rfl
        have : d.count x = 0 := by
          rw [List.count_eq_zero]
          intro hmem
          obtain ⟨j, hj'⟩ := List.mem_iff_getElem?.1 hmem
          have := hj (j + 1) (by simpa using hj')
          omega
        omega
      · rw [List.count_cons_of_ne hx]
        exact ih (k + 1) (fun j h1 => by have := hj (j + 1) (by simpa using h1); omega)
  have h1 := key s.data 0 (by
    intro j hj
    rw [Nat.zero_add]
    by_cases hq : j ∈ Q
    · exfalso
      have halive := h.alive_not_mem he
      rcases seg_next_mem h.chain hq hj with h2 | h2
      · exact halive h2
      · have := lt_of_getElem?_some hm; have := h.cap; omega
    · exact (h.own j e hj hq).symm)
  have h2 : 0 < s.data.count e := List.count_pos_iff.2 (List.mem_of_getElem? hm)
  omega

theorem iter_eq_data {s : Entities} (hall : ∀ (i : Nat) (e : EId), s.data[i]? = some e → e.idx = i) :
    s.iter = s.data := by
  have key : ∀ (d : List EId) (k : Nat), (∀ (i : Nat) (e : EId), d[i]? = some e → e.idx = k + i) →
      ((d.zipIdx k).filterMap fun x => if x.2 = x.1.idx then some x.1 else none) = d := by
    intro d
    induction d with
    | nil => intro k _; rfl
    | cons x d ih =>
      intro k hk
      rw [List.zipIdx_cons, List.filterMap_cons]
      have h0 := hk 0 x rfl
      simp only [Nat.add_zero] at h0
      simp only [h0, if_true]
      rw [ih (k + 1) (fun i e h1 => by have := hk (i + 1) e (by simpa using h1); omega)]
  exact key s.data 0 (by simpa using hall)

/-- **C10** (partial: no slot may be exhausted, see `C10_duplicate_fails`, and the callback part only
holds when no slot is recyclable, see `C10_callback_fails`). After a clear nothing is alive, the
callback has been called with every id alive before, and the ids added in any later history were never
issued before the clear. -/
theorem C10_clear_partial {s : Entities} {h : List Event} (hr : Reach s h) (hne : s.NotExhausted) :
    ∃ s', s.clear = .ok s' ∧ (∀ e, s'.isAlive e = false) ∧
      (s.hook = true → ∃ called, s'.log = s.log ++ called ∧
        (∀ e, s.isAlive e = true → called.count e = 1) ∧ called.length = s.data.length ∧
        ((∀ e ∈ s.data, s.isAlive e = true) → called = s.iter.reverse)) ∧
      (∀ s2 h2, Reach s2 (h ++ .cleared :: h2) → ∀ e ∈ created h2, e ∉ issued h) := by
  obtain ⟨Q, hi, _⟩ := reach_inv hr
  obtain ⟨s', hs, hc⟩ := clear_ok hi hne
  refine ⟨s', hs, ?_, ?_, ?_⟩
  · intro e
    rw [← Bool.not_eq_true, hc.inv.isAlive_iff_genAt]
    rintro ⟨h1, h2⟩
    have := genAt_lt h2
    rw [hc.len] at this
    exact h1 (List.mem_range.2 this)
  · intro hk
    refine ⟨s.data.reverse, by rw [hc.log, hk]; rfl, ?_, by simp, ?_⟩
    · intro e he
      have h1 := (Inv.isAlive_iff s e).1 he
      rw [List.count_reverse]
      exact count_alive hi he
    · intro hall
      rw [iter_eq_data]
      intro i e he
      refine hi.own i e he ?_
      intro hq
      exact absurd (hall e (List.mem_of_getElem? he)) (by rw [(hi.mem_iff_dead he).1 hq]; decide)
  · intro s2 h2 hr2 e he
    unfold created at he
    rw [List.mem_flatMap] at he
    obtain ⟨ev, h3, h4⟩ := he
    obtain ⟨a, b, rfl⟩ := List.append_of_mem h3
    have h5 := (C03_ids_never_reused hr2).1 (h ++ .cleared :: a) ev b (by simp) e h4
    intro h6
    apply h5
    unfold issued at h6 ⊢
    simp only [List.flatMap_append, List.mem_append]
    exact .inl h6

example : ∃ s', demoState.clear = .ok s' ∧ demoState.NotExhausted ∧ demoState.iter ≠ [] :=
  ⟨_, rfl, by decide, by decide⟩

/-- **C10 fails** for the callback: after two adds and a delete, `clear` calls it for the deleted
entity's slot too, with an id that was never alive. -/
theorem C10_callback_fails : ∃ s h s' e, Reach s h ∧ s.hook = true ∧ s.clear = .ok s' ∧
    s.log = [⟨0, 0⟩] ∧ s'.log = [⟨0, 0⟩, ⟨1, 0⟩, e] ∧ e ∉ issued h := by
  have r := (Reach.init true)
  have r := r.add (e := ⟨0, 0⟩) rfl (by decide)
  have r := r.add (e := ⟨1, 0⟩) rfl (by decide)
  have r := r.delete (b := true) ⟨0, 0⟩ rfl (by decide)
  exact ⟨_, _, _, ⟨EId.maxIndex, 1⟩, r, rfl, rfl, rfl, rfl, by decide⟩

/-- **C10 fails** for uniqueness when a slot is exhausted: after clearing a store holding the id
`0.65533` the next add returns that very id again. -/
theorem C10_duplicate_fails : ∃ s h s' e, Reach s h ∧ s.isAlive e = true ∧ s.clear = .ok s' ∧
    ∃ s2, s'.generate = .ok (e, s2) := by
  have r := (Reach.init false)
  have r := r.spawn (b := true) ⟨0, 65533⟩ rfl (by decide) (by decide)
  exact ⟨_, _, _, ⟨0, 65533⟩, r, rfl, rfl, _, rfl⟩

/-! ## C11 -/

/-- Ids whose delete returned `true`, in order. -/
def deletedIds (h : List Event) : List EId :=
  h.filterMap fun ev => match ev with
    | .deleted e true => some e
    | _ => none

/-- **C11** Along any history without clears, starting with a callback registered, the callback has
received precisely the ids whose delete returned `true`, in order (also for exhausted slots). -/
theorem C11_callback_log {s : Entities} {h : List Event} (hr : Reach s h)
    (hclear : .cleared ∉ h) (hk : s.hook = true) : s.log = deletedIds h := by
  have key : ∀ {s : Entities} {h : List Event}, Reach s h → .cleared ∉ h → s.hook = true →
      s.log = deletedIds h := by
    intro s h hr
    induction hr with
    | init hook => intro _ _; rfl
    | @step s h ev s' hr hs hcap hc ih =>
      intro hcl hk
      simp only [List.mem_append, List.mem_singleton, not_or] at hcl
      obtain ⟨Q, hi, _⟩ := reach_inv hr
      obtain ⟨Q', hi', hef⟩ := step_effect hi hs hcap hc
      have hsn : ∀ ev, deletedIds (h ++ [ev]) = deletedIds h ++ deletedIds [ev] := by
        intro ev; simp [deletedIds]
      rw [hsn]
      cases hef with
      | addNew _ _ _ _ h1 h2 => rw [h2, ih hcl.1 (by rw [← h1, hk])]; simp [deletedIds]
      | addOld _ _ _ _ h1 h2 => rw [h2, ih hcl.1 (by rw [← h1, hk])]; simp [deletedIds]
      | bulk _ _ _ _ h1 h2 => rw [h2, ih hcl.1 (by rw [← h1, hk])]; simp [deletedIds]
      | deleteDead => rw [ih hcl.1 hk]; simp [deletedIds]
      | deleteExhausted =>
        have : s.hook = true := by unfold callHook at hk; split at hk <;> simp_all
        unfold callHook; rw [this, if_pos rfl]; simp only; rw [ih hcl.1 this]; simp [deletedIds]
      | delete _ _ _ _ _ h1 h2 =>
        rw [h1] at hk
        rw [h2, hk, if_pos rfl, ih hcl.1 hk]; simp [deletedIds]
      | spawnRefused => rw [ih hcl.1 hk]; simp [deletedIds]
      | spawned h1 => rw [h1.log, ih hcl.1 (by rw [← h1.hook, hk])]; simp [deletedIds]
      | clear => exact absurd rfl hcl.2
  exact key hr hclear hk

example : ∃ s, Reach s [.added ⟨0, 0⟩, .added ⟨1, 0⟩, .deleted ⟨1, 0⟩ true, .deleted ⟨1, 0⟩ false,
    .deleted ⟨0, 0⟩ true] ∧ s.hook = true ∧ s.log = [⟨1, 0⟩, ⟨0, 0⟩] := by
  have r := (Reach.init true)
  have r := r.add (e := ⟨0, 0⟩) rfl (by decide)
  have r := r.add (e := ⟨1, 0⟩) rfl (by decide)
  have r := r.delete (b := true) ⟨1, 0⟩ rfl (by decide)
  have r := r.delete (b := false) ⟨1, 0⟩ rfl (by decide)
  have r := r.delete (b := true) ⟨0, 0⟩ rfl (by decide)
  exact ⟨_, r, rfl, rfl⟩

end Verif.Entities

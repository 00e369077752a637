import Verif.Lemmas.BorrowViews

/-!
# C39: borrowing several views
-/
namespace Verif.Borrow

/-- C39: `World::borrow` of any view or tuple of views, nested in any way, from any state of the storages. On an error every storage has
the guards it had before. Otherwise each view that was asked for is held, with the mutability that was asked for, and nothing more.
No panic. -/
theorem C39_world_borrow (r : WReq) {st : Cells} (hok : st.Ok) (hr : st.Room r.cost) :
    ∃ st' o, st.worldBorrow r = .ok (st', o) ∧ st'.Ok
      ∧ (o = none → SameGuards st st')
      ∧ (∀ v, o = some v → WAnswers r v ∧ MoreGuards st st' v) := by
  obtain ⟨st', o, h1, h2, h3, h4⟩ := worldBorrow_spec r (n := 0) ((Good.of hok hr).mono (by omega))
  refine ⟨st', o, h1, h2.ok, fun ho s => ?_, fun v ho => ⟨(h4 v ho).1, fun s => ?_⟩⟩
  all_goals
    subst ho
    have := h3.shared s
    have := h3.exclusive s
    have := h3.reborrowed s
    simp only [heldS, heldX] at *
    omega

/-- C39: the same for `AllStorages::borrow`. -/
theorem C39_all_storages_borrow (r : Req) {st : Cells} (hok : st.Ok) (hr : st.Room r.cost) :
    ∃ st' o, st.borrow false r = .ok (st', o) ∧ st'.Ok
      ∧ (o = none → SameGuards st st')
      ∧ (∀ v, o = some v → Answers false r v ∧ MoreGuards st st' v) := by
  obtain ⟨st', o, h1, h2, h3, h4⟩ := borrow_spec r (n := 0) false ((Good.of hok hr).mono (by omega)) (fun h => by cases h)
  refine ⟨st', o, h1, h2.ok, fun ho s => ?_, fun v ho => ⟨(h4 v ho).1, fun s => ?_⟩⟩
  all_goals
    subst ho
    have := h3.shared s
    have := h3.exclusive s
    have := h3.reborrowed s
    simp [heldS, heldX, allD] at *
    omega

/-- C39: the same for the parameters of a system. -/
theorem C39_system (rs : List WReq) {st : Cells} (hok : st.Ok) (hr : st.Room (rs.map WReq.cost).sum) :
    ∃ st' o, st.params rs = .ok (st', o) ∧ st'.Ok
      ∧ (o = none → SameGuards st st')
      ∧ (∀ vs, o = some vs → WAnswersAll rs vs ∧ MoreGuards st st' (.tuple vs)) := by
  obtain ⟨st', o, h1, h2, h3, h4⟩ := params_spec rs (n := 0) ((Good.of hok hr).mono (by omega))
  refine ⟨st', o, h1, h2.ok, fun ho s => ?_, fun v ho => ⟨(h4 v ho).1, fun s => ?_⟩⟩
  all_goals
    subst ho
    have := h3.shared s
    have := h3.exclusive s
    have := h3.reborrowed s
    simp only [heldAllS, heldAllX, View.sharedOn, View.exclusiveOn] at *
    omega

/-- C39: dropping what `World::borrow` returned gives every storage the guards it had before. -/
theorem C39_drop (r : WReq) {st st' : Cells} {v : View} (hok : st.Ok) (hr : st.Room r.cost)
    (h : st.worldBorrow r = .ok (st', some v)) : ∃ st'', st'.dropView v = .ok st'' ∧ st''.Ok ∧ SameGuards st st'' := by
  obtain ⟨st1, o, h1, h2, h3, h4⟩ := worldBorrow_spec r (n := 0) ((Good.of hok hr).mono (by omega))
  rw [h] at h1
  cases h1
  obtain ⟨st2, h5, h6, h7⟩ := dropView_spec v h2 (h4 v rfl).2 (fun s => by
    have := h3.shared s
    have := h3.exclusive s
    simp only [heldS, heldX] at *
    omega)
  refine ⟨st2, h5, h6.ok, fun s => ?_⟩
  have := h3.shared s
  have := h3.exclusive s
  have := h3.reborrowed s
  have := h7.shared s
  have := h7.exclusive s
  have := h7.reborrowed s
  simp only [heldS, heldX] at *
  omega

/-- C39: a single view is refused only when its storage does not exist, has the wrong tracking, is held in a conflicting way or belongs
to another thread. -/
theorem C39_single {st st' : Cells} {s : Nat} {x create trackOk : Bool} (hok : st.Ok) (hr : st.Room 1)
    (h : st.borrow false (.view s x create trackOk) = .ok (st', none)) :
    (create = false ∧ st.present s = false) ∨ trackOk = false ∨ (st.cell s).exclusive ≠ 0
    ∨ (x = true ∨ st.isSync s = false) ∧ ((st.cell s).guards ≠ 0 ∨ ∃ t, st.owner s = some t ∧ t ≠ st.me) := by
  have hg := Good.of hok hr
  have hcreate : ∃ st0, (if create then st.create s else st) = st0 ∧ Good st0 1 ∧ Moves st st0 (fun _ => 0) (fun _ => 0)
      ∧ (st0.present s = false → create = false ∧ st.present s = false) := by
    cases create with
    | true =>
      obtain ⟨h1, h2, h3⟩ := create_spec s hg
      exact ⟨_, rfl, h1, h2, fun h => by rw [if_pos rfl, h3] at h; cases h⟩
    | false => exact ⟨_, rfl, hg, Moves.refl st, fun h => ⟨rfl, h⟩⟩
  obtain ⟨st0, h0, hg0, hm0, hp0⟩ := hcreate
  rw [Cells.borrow] at h
  unfold Cells.borrowView at h
  rw [h0] at h
  dsimp only at h
  cases hp : st0.present s with
  | false => exact .inl (hp0 hp)
  | true =>
    obtain ⟨st1, got, h1, h2, h3, h4, h5⟩ := guard_spec (n := 0) s x hg0 hp
    have e1 := hm0.shared s
    have e2 := hm0.exclusive s
    have e3 := hm0.reborrowed s
    cases got with
    | false =>
      have := h5 rfl
      unfold Refused Cell.guards at this
      rw [hm0.setup.isSync, hm0.setup.owner, hm0.setup.me] at this
      unfold Cell.guards
      rcases this with h | ⟨h, h'⟩ | ⟨h, h'⟩
      · exact .inr (.inr (.inl (by omega)))
      · exact .inr (.inr (.inr ⟨h, .inl (by omega)⟩))
      · exact .inr (.inr (.inr ⟨h, .inr h'⟩))
    | true =>
      cases trackOk with
      | false => exact .inr (.inl rfl)
      | true =>
        simp [hp, h1, Except.bind] at h

/-- A world with entities and a storage 2 held exclusively by someone. -/
def Ex.busy : Cells :=
  { cell := fun s => if s = 2 then { Cell.new with word := HIGH, exclusive := 1 } else Cell.new
    present := fun s => s ≤ 2
    owner := fun _ => none
    isSync := fun _ => true
    me := 0 }

theorem Ex.busy_ok : Ex.busy.Ok where
  reach := fun s => by
    by_cases hs : s = 2
    · subst hs
      exact ⟨[(.write, .guard)], .step (h := []) .new (by unfold Small; decide) rfl⟩
    · refine ⟨[], ?_⟩
      simp only [Ex.busy, hs, if_false]
      exact .new
  absent := fun s hs => by
    simp only [Ex.busy, decide_eq_false_iff_not] at hs
    simp only [Ex.busy]
    rw [if_neg (by omega)]
  base := by decide

theorem Ex.busy_room : Ex.busy.Room 10 where
  few := by decide
  shared := fun s => by
    simp only [Ex.busy]
    split <;> decide
  alive := fun s => by
    simp only [Ex.busy]
    split <;> rfl
  failed := fun s h => by
    simp only [Ex.busy] at *
    split
    · decide
    · rename_i hs
      simp [hs, Cell.new] at h

/-- The tuple fails at its third view, after two guards were made. -/
example : ∃ st', Ex.busy.worldBorrow (.views (.tuple [.view 1 false false true, .view 3 true true true, .view 2 false true true]))
    = .ok (st', none) ∧ SameGuards Ex.busy st' := by
  have hr : Ex.busy.Room 10 := Ex.busy_room
  obtain ⟨st', o, h1, _, h2, _⟩ := C39_world_borrow
    (.views (.tuple [.view 1 false false true, .view 3 true true true, .view 2 false true true])) Ex.busy_ok
    ⟨by decide, fun s => by have := hr.shared s; simp only [WReq.cost, Req.cost, Req.costAll]; omega, hr.alive,
      fun s h => by have := hr.failed s h; simp only [WReq.cost, Req.cost, Req.costAll]; omega⟩
  cases o with
  | none => exact ⟨st', h1, h2 rfl⟩
  | some v =>
    exfalso
    have : (Ex.busy.worldBorrow (.views (.tuple [.view 1 false false true, .view 3 true true true, .view 2 false true true]))).toOption.map
      (fun p => p.2.isSome) = some false := by decide
    rw [h1] at this
    cases this

end Verif.Borrow

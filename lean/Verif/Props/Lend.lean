import Verif.Lemmas.Lend
import Verif.Props.BorrowViews

/-!
# C39: exactly when views are granted
-/
namespace Verif.Borrow

/-- What is lent in a world. -/
def Lent.of (st : Cells) : Lent :=
  ⟨fun s => (st.cell s).shared, fun s => (st.cell s).exclusive, st.present⟩

theorem Lent.of_is (st : Cells) : (Lent.of st).Is st := fun _ _ => ⟨rfl, rfl, rfl⟩

/-- C39: `AllStorages::borrow` of any view or tuple of views, nested in any way, gives the views exactly when the rule of `Lent.take`
grants them, and afterwards exactly what the rule says is lent. -/
theorem C39_granted_all_storages (r : Req) {st : Cells} (hok : st.Ok) (hr : st.Room r.cost) (hl : ∀ l ∈ r.leaves, l.1 ≠ allCell) :
    ∃ st' o, st.borrow false r = .ok (st', o) ∧ o.isSome = ((Lent.of st).take st r).2 ∧ ((Lent.of st).take st r).1.Is st' := by
  have hg := (Good.of hok hr).mono (m := 0 + r.cost) (by omega)
  obtain ⟨st', o, h1, _⟩ := borrow_spec r false hg (fun h => by cases h)
  obtain ⟨h2, h3⟩ := borrow_take r ⟨rfl, rfl, rfl⟩ hg (fun h => by cases h) hl (Lent.of_is st) h1
  exact ⟨st', o, h1, h2, h3⟩

/-- C39: `World::borrow` succeeds exactly when the rule of `Lent.grants` says so. -/
theorem C39_granted (r : WReq) {st : Cells} (hok : st.Ok) (hr : st.Room r.cost) (hsync : st.isSync allCell = true)
    (hl : ∀ l ∈ r.leaves, l.1 ≠ allCell) :
    ∃ st' o, st.worldBorrow r = .ok (st', o) ∧ o.isSome = (Lent.of st).grants st r := by
  obtain ⟨st', o, h, _⟩ := C39_world_borrow r hok hr
  refine ⟨st', o, h, ?_⟩
  cases r with
  | views r =>
    simp only [WReq.cost] at hr
    have hg : Good st (r.cost + 1) := Good.of hok hr
    obtain ⟨st1, got, h1, h2, h3, _⟩ := guard_spec allCell false hg hok.base.1
    have h4 := guard_got hg h1
    unfold Cells.worldBorrow at h
    simp only [h1, Except.bind] at h
    have e : got = decide ((st.cell allCell).exclusive = 0) := by
      rw [h4]
      unfold Cells.taken elsewhere
      rw [hsync]
      simp
    unfold Lent.grants
    rw [← e]
    cases got with
    | false => cases h; rfl
    | true =>
      simp only [Bool.true_eq_false, if_false] at h
      have hi : (Lent.of st).Is st1 := fun k hk => by
        have m1 := h3.shared k
        have m2 := h3.exclusive k
        simp only [only, hk, if_false] at m1 m2
        exact ⟨by show (st.cell k).shared = _; omega, by show (st.cell k).exclusive = _; omega, by rw [guard_present h1]; rfl⟩
      have := h3.shared allCell
      simp [only] at this
      rw [(borrow_take (n := 0) r ((show SameEnv st st from ⟨rfl, rfl, rfl⟩).moves h3) (h2.mono (by omega)) (fun _ => by omega) hl hi h).1]
      rfl
  | allStorages x =>
    simp only [WReq.cost] at hr
    have hg : Good st (0 + 1) := Good.of hok hr
    obtain ⟨st1, got, h1, h2, h3, _⟩ := guard_spec allCell x hg hok.base.1
    have h4 := guard_got hg h1
    unfold Cells.worldBorrow at h
    simp only [h1, Except.map] at h
    cases h
    have e : (if got = true then some (View.view allCell x false) else none).isSome = got := by cases got <;> rfl
    rw [e, h4]
    unfold Cells.taken Lent.grants
    cases x with
    | true => simp
    | false => simp [hsync, elsewhere]

theorem worldBorrow_take {env st st' : Cells} {n : Nat} {r : Req} {o : Option View} {g : Lent} (he : SameEnv env st)
    (hg : Good st (n + r.cost + 1)) (hsync : st.isSync allCell = true) (hx : (st.cell allCell).exclusive = 0)
    (hl : ∀ l ∈ r.leaves, l.1 ≠ allCell) (hi : g.Is st) (h : st.worldBorrow (.views r) = .ok (st', o)) :
    o.isSome = (g.take env r).2 ∧ (g.take env r).1.Is st' := by
  obtain ⟨st1, got, h1, h2, h3, _⟩ := guard_spec allCell false hg hg.ok.base.1
  have h4 := guard_got hg h1
  unfold Cells.worldBorrow at h
  simp only [h1, Except.bind] at h
  have e : got = true := by
    rw [h4]
    unfold Cells.taken elsewhere
    rw [hsync]
    simp [hx]
  subst e
  simp only [Bool.true_eq_false, if_false] at h
  have hi1 : g.Is st1 := fun k hk => by
    obtain ⟨i1, i2, i3⟩ := hi k hk
    have m1 := h3.shared k
    have m2 := h3.exclusive k
    simp only [only, hk, if_false] at m1 m2
    exact ⟨by omega, by omega, by rw [guard_present h1]; exact i3⟩
  have := h3.shared allCell
  simp [only] at this
  exact borrow_take (n := n) r (he.moves h3) h2 (fun _ => by omega) hl hi1 h

mutual
theorem exclusiveOn_all {all : Bool} (r : Req) {v : View} (h : Answers all r v) (hl : ∀ l ∈ r.leaves, l.1 ≠ allCell) :
    v.exclusiveOn allCell = 0 := by
  match r, v, h with
  | _, _, .unit => simp [View.exclusiveOn]
  | _, _, .view s x _ _ =>
    have : s ≠ allCell := hl (s, x) (by simp [Req.leaves])
    simp [View.exclusiveOn, this.symm]
  | _, _, .optNone _ => simp [View.exclusiveOn]
  | .opt r, _, .optSome h => simpa [View.exclusiveOn] using exclusiveOn_all r h (by simpa only [Req.leaves] using hl)
  | .tuple rs, .tuple vs, h => simpa [View.exclusiveOn] using exclusiveOnAll_all rs h (by simpa only [Req.leaves] using hl)
theorem exclusiveOnAll_all {all : Bool} (rs : List Req) {vs : List View} (h : Answers all (.tuple rs) (.tuple vs))
    (hl : ∀ l ∈ Req.leavesAll rs, l.1 ≠ allCell) : View.exclusiveOnAll allCell vs = 0 := by
  match rs, vs, h with
  | _, _, .tupleNil => simp [View.exclusiveOnAll]
  | r :: rs, _, .tupleCons h h' =>
    have h1 := exclusiveOn_all r h (fun l h => hl l (by simp [Req.leavesAll, h]))
    have h2 := exclusiveOnAll_all rs h' (fun l h => hl l (by simp [Req.leavesAll, h]))
    simp [View.exclusiveOnAll, h1, h2]
end

theorem params_take (rs : List Req) {env st st' : Cells} {n : Nat} {o : Option (List View)} {g : Lent} (he : SameEnv env st)
    (hg : Good st (n + ((rs.map WReq.views).map WReq.cost).sum)) (hsync : st.isSync allCell = true) (hx : (st.cell allCell).exclusive = 0)
    (hl : ∀ l ∈ Req.leavesAll rs, l.1 ≠ allCell) (hi : g.Is st) (h : st.params (rs.map .views) = .ok (st', o)) :
    o.isSome = (g.takeAll env rs).2 ∧ (g.takeAll env rs).1.Is st' := by
  induction rs generalizing st st' n o g with
  | nil =>
    cases h
    rw [Lent.takeAll]
    exact ⟨rfl, hi⟩
  | cons r rs ih =>
    obtain ⟨_, _, h1, _, hm, _⟩ := params_spec _ hg
    rw [h] at h1
    cases h1
    have hfail : o = none → ∀ k, k ≠ allCell → g.shared k = (st'.cell k).shared ∧ g.exclusive k = (st'.cell k).exclusive := fun ho k hk => by
      obtain ⟨i1, i2, i3⟩ := hi k hk
      have m1 := hm.shared k
      have m2 := hm.exclusive k
      subst ho
      simp only [heldAllS, heldAllX] at m1 m2
      exact ⟨by omega, by omega⟩
    simp only [List.map_cons, List.sum_cons, WReq.cost] at hg
    have hg1 : Good st (n + ((rs.map WReq.views).map WReq.cost).sum + (WReq.views r).cost) := hg.mono (by simp only [WReq.cost]; omega)
    obtain ⟨st1, o1, a1, a2, a3, a4⟩ := worldBorrow_spec (.views r) hg1
    rw [List.map_cons, Cells.params] at h
    simp only [a1, Except.bind] at h
    have hlr : ∀ l ∈ r.leaves, l.1 ≠ allCell := fun l h => hl l (by simp [Req.leavesAll, h])
    obtain ⟨t1, t2⟩ := worldBorrow_take he hg1 hsync hx hlr hi a1
    rw [Lent.takeAll]
    cases o1 with
    | none =>
      cases h
      generalize g.take env r = q at t1 t2 ⊢
      obtain ⟨g', b⟩ := q
      cases t1
      refine ⟨rfl, fun k hk => ?_⟩
      obtain ⟨f1, f2⟩ := hfail rfl k hk
      exact ⟨f1, f2, (t2 k hk).2.2⟩
    | some v =>
      simp only at h
      have hx1 : (st1.cell allCell).exclusive = 0 := by
        have m := a3.exclusive allCell
        obtain ⟨hv, _⟩ := a4 v rfl
        cases hv with
        | views hv =>
          have := exclusiveOn_all r hv hlr
          simp only [heldX] at m
          omega
      obtain ⟨st2, o2, b1, b2, b3, b4⟩ := params_spec (rs.map .views) a2
      simp only [b1] at h
      generalize g.take env r = q at t1 t2 ⊢
      obtain ⟨g', b⟩ := q
      cases t1
      obtain ⟨u1, u2⟩ := ih (he.moves a3) a2 (by rw [a3.setup.isSync]; exact hsync) hx1
        (fun l h => hl l (by simp [Req.leavesAll, h])) t2 b1
      simp only
      cases o2 with
      | some vs =>
        cases h
        generalize g'.takeAll env rs = q at u1 u2 ⊢
        obtain ⟨g'', b⟩ := q
        cases u1
        exact ⟨rfl, u2⟩
      | none =>
        simp only at h
        cases h3 : st2.dropView v with
        | error e => rw [h3] at h; cases h
        | ok st3 =>
          rw [h3] at h
          cases h
          generalize g'.takeAll env rs = q at u1 u2 ⊢
          obtain ⟨g'', b⟩ := q
          cases u1
          refine ⟨rfl, fun k hk => ?_⟩
          obtain ⟨f1, f2⟩ := hfail rfl k hk
          exact ⟨f1, f2, by rw [dropView_present v h3]; exact (u2 k hk).2.2⟩

/-- C39: a system whose parameters are views (nested in any way), run while no `AllStoragesViewMut` is held, gets them exactly when the
rule grants them one after the other. -/
theorem C39_granted_system (rs : List Req) {st : Cells} (hok : st.Ok) (hr : st.Room ((rs.map WReq.views).map WReq.cost).sum)
    (hsync : st.isSync allCell = true) (hx : (st.cell allCell).exclusive = 0) (hl : ∀ l ∈ Req.leavesAll rs, l.1 ≠ allCell) :
    ∃ st' o, st.params (rs.map .views) = .ok (st', o) ∧ o.isSome = ((Lent.of st).takeAll st rs).2
      ∧ ((Lent.of st).takeAll st rs).1.Is st' := by
  have hg := (Good.of hok hr).mono (m := 0 + ((rs.map WReq.views).map WReq.cost).sum) (by omega)
  obtain ⟨st', o, h1, _⟩ := params_spec _ hg
  obtain ⟨h2, h3⟩ := params_take rs ⟨rfl, rfl, rfl⟩ hg hsync hx hl (Lent.of_is st) h1
  exact ⟨st', o, h1, h2, h3⟩

/-- The storage 2 of `Ex.busy` is lent exclusively: a tuple with a view of it is refused, one with an optional view is granted and makes
storage 3. -/
example : ((Lent.of Ex.busy).grants Ex.busy (.views (.tuple [.view 1 false false true, .view 2 false true true]))) = false
    ∧ ((Lent.of Ex.busy).grants Ex.busy (.views (.tuple [.opt (.view 2 false true true), .view 3 true true true]))) = true := by
  constructor <;> decide +kernel

example : ∃ st' o, Ex.busy.worldBorrow (.views (.tuple [.opt (.view 2 false true true), .view 3 true true true])) = .ok (st', o)
    ∧ o.isSome = true := by
  obtain ⟨st', o, h1, h2⟩ := C39_granted (.views (.tuple [.opt (.view 2 false true true), .view 3 true true true])) Ex.busy_ok
    ⟨by decide, fun s => by have := Ex.busy_room.shared s; simp [WReq.cost, Req.cost, Req.costAll]; omega, Ex.busy_room.alive,
      fun s h => by have := Ex.busy_room.failed s h; simp [WReq.cost, Req.cost, Req.costAll]; omega⟩ rfl
    (by simp [WReq.leaves, Req.leaves, Req.leavesAll, allCell])
  exact ⟨st', o, h1, h2.trans (by decide +kernel)⟩

end Verif.Borrow

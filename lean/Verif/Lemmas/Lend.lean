import Verif.Lemmas.BorrowViews
import Verif.Spec.Lend

/-!
# When a request for views is granted: proofs
-/
namespace Verif.Borrow

theorem act_present {st st' : Cells} {s : Nat} {e : Ev} {b : Bool} (h : st.act s e = .ok (st', b)) : st'.present = st.present := by
  unfold Cells.act at h
  split at h <;> cases h <;> rfl

theorem guard_present {st st' : Cells} {s : Nat} {x b : Bool} (h : st.guard s x = .ok (st', b)) : st'.present = st.present := by
  unfold Cells.guard at h
  split at h
  · cases h; rfl
  · exact act_present h

theorem act_map_present {st st' : Cells} {s : Nat} {e : Ev} (h : (st.act s e).map (·.1) = .ok st') : st'.present = st.present := by
  cases h1 : st.act s e with
  | error e => rw [h1] at h; cases h
  | ok p => rw [h1] at h; cases h; exact act_present (b := p.2) h1

theorem dropAll_present {st st' : Cells} {all : Bool} (h : st.dropAll all = .ok st') : st'.present = st.present := by
  unfold Cells.dropAll at h
  split at h
  · exact act_map_present h
  · cases h; rfl

theorem cloneAll_present {st st' : Cells} {all : Bool} (h : st.cloneAll all = .ok st') : st'.present = st.present := by
  unfold Cells.cloneAll at h
  split at h
  · exact act_map_present h
  · cases h; rfl

theorem dropGuard_present {st st' : Cells} {s : Nat} {x : Bool} (h : st.dropGuard s x = .ok st') : st'.present = st.present :=
  act_map_present h

mutual
theorem dropView_present (v : View) {st st' : Cells} (h : st.dropView v = .ok st') : st'.present = st.present := by
  match v with
  | .unit => rw [Cells.dropView] at h; cases h; rfl
  | .opt none => rw [Cells.dropView] at h; cases h; rfl
  | .opt (some v) => rw [Cells.dropView] at h; exact dropView_present v h
  | .tuple vs => rw [Cells.dropView] at h; exact dropViews_present vs h
  | .view s x all =>
    rw [Cells.dropView] at h
    cases h1 : st.dropAll all with
    | error e => rw [h1] at h; cases h
    | ok st1 => rw [h1] at h; exact (dropGuard_present h).trans (dropAll_present h1)
theorem dropViews_present (vs : List View) {st st' : Cells} (h : st.dropViews vs = .ok st') : st'.present = st.present := by
  match vs with
  | [] => rw [Cells.dropViews] at h; cases h; rfl
  | v :: vs =>
    rw [Cells.dropViews] at h
    cases h1 : st.dropView v with
    | error e => rw [h1] at h; cases h
    | ok st1 => rw [h1] at h; exact (dropViews_present vs h).trans (dropView_present v h1)
end

/-- Whether the guard of a storage is given. -/
def Cells.taken (st : Cells) (s : Nat) (x : Bool) : Bool :=
  decide ((st.cell s).exclusive ≠ 0) || (x || (!st.isSync s && (st.owner s).isNone)) && decide ((st.cell s).shared ≠ 0)
    || elsewhere st s x

theorem act_got {st st' : Cells} {s : Nat} {e : Ev} {c : Cell} {g : Got} {b : Bool} (hs : (st.cell s).step e = some (c, g))
    (hg : g = .guard ∨ g = .error) (h : st.act s e = .ok (st', b)) : b = decide (g = .guard) := by
  unfold Cells.act at h
  rw [hs] at h
  rcases hg with rfl | rfl <;> cases h <;> rfl

theorem guard_got {st st' : Cells} {n : Nat} {s : Nat} {x got : Bool} (hg : Good st (n + 1)) (h : st.guard s x = .ok (st', got)) :
    got = !st.taken s x := by
  have hm := (hg.inv s).mode
  have hread : ∀ {st' got}, st.act s .read = .ok (st', got) → got = decide ((st.cell s).exclusive = 0) := by
    intro st' got h
    by_cases he : (st.cell s).exclusive = 0
    · rw [act_got (step_read (hg.inv s) (hg.room s).small he) (.inl rfl) h]
      simp [he]
    · rcases step_read_held (hg.inv s) (hg.room s).small he with ⟨hs, _⟩ | hs
      · rw [act_got hs (.inr rfl) h]
        simp [he]
      · unfold Cells.act at h
        rw [hs] at h
        cases h
  have hwrite : ∀ {st' got}, st.act s .write = .ok (st', got) → got = decide ((st.cell s).guards = 0) := by
    intro st' got h
    by_cases he : (st.cell s).guards = 0
    · rw [act_got (step_write (hg.inv s) he) (.inl rfl) h]
      simp [he]
    · rw [act_got (step_write_held (hg.inv s) he) (.inr rfl) h]
      simp [he]
  have hsole : ∀ {st' got}, st.act s .exclusiveRead = .ok (st', got) → got = decide ((st.cell s).guards = 0) := by
    intro st' got h
    by_cases he : (st.cell s).guards = 0
    · rw [act_got (step_exclusiveRead (hg.inv s) he) (.inl rfl) h]
      simp [he]
    · rw [act_got (step_exclusiveRead_held (hg.inv s) he) (.inr rfl) h]
      simp [he]
  have hguards : decide ((st.cell s).guards = 0) = !(decide ((st.cell s).exclusive ≠ 0) || decide ((st.cell s).shared ≠ 0)) := by
    by_cases h1 : (st.cell s).exclusive = 0 <;> by_cases h2 : (st.cell s).shared = 0 <;> simp [Cell.guards, h1, h2] <;> omega
  unfold Cells.guard at h
  unfold Cells.taken elsewhere
  cases x with
  | true =>
    simp only [if_true, borrowMutEv] at h
    cases ho : st.owner s with
    | none =>
      rw [ho] at h
      rw [hwrite h, hguards]
      simp
    | some t =>
      rw [ho] at h
      by_cases ht : t = st.me
      · simp only [ht, ne_eq, not_true, if_false] at h
        rw [hwrite h, hguards]
        simp [ht]
      · simp only [ht, ne_eq, not_false_iff, if_true] at h
        cases h
        simp [ht]
  | false =>
    simp only [Bool.false_eq_true, if_false] at h
    cases hy : st.isSync s with
    | true =>
      rw [hy] at h
      simp only [borrowEv] at h
      rw [hread h]
      simp
    | false =>
      rw [hy] at h
      cases ho : st.owner s with
      | none =>
        rw [ho] at h
        simp only [borrowEv] at h
        rw [hsole h, hguards]
        simp
      | some t =>
        rw [ho] at h
        simp only [borrowEv] at h
        by_cases ht : t = st.me
        · simp only [ht, ne_eq, not_true, if_false] at h
          rw [hread h]
          simp [ht]
        · simp only [ht, ne_eq, not_false_iff, if_true] at h
          cases h
          simp [ht]

/-- The same threads and the same kinds of storages. -/
structure SameEnv (env st : Cells) : Prop where
  owner : env.owner = st.owner
  isSync : env.isSync = st.isSync
  me : env.me = st.me

theorem SameEnv.moves {env st st' : Cells} {f g : Nat → Int} (h : SameEnv env st) (hm : Moves st st' f g) : SameEnv env st' :=
  ⟨h.owner.trans hm.setup.owner.symm, h.isSync.trans hm.setup.isSync.symm, h.me.trans hm.setup.me.symm⟩

theorem busy_taken {env st : Cells} {g : Lent} {s : Nat} {x : Bool} (he : SameEnv env st) (hi : g.Is st) (hs : s ≠ allCell) :
    g.busy env s x = st.taken s x := by
  obtain ⟨h1, h2, _⟩ := hi s hs
  unfold Lent.busy Cells.taken elsewhere
  rw [h1, h2, he.owner, he.isSync, he.me]

theorem create_present (st : Cells) (s : Nat) : ∀ k, (st.create s).present k = (decide (k = s) || st.present k) := by
  intro k
  unfold Cells.create
  split
  · rename_i h
    by_cases hk : k = s
    · subst hk; simp [h]
    · simp [hk]
  · simp

theorem make_is {st : Cells} {n : Nat} {g : Lent} (hg : Good st n) (hi : g.Is st) (s : Nat) : (g.make s).Is (st.create s) := by
  obtain ⟨_, hm, _⟩ := create_spec s hg
  intro k hk
  obtain ⟨h1, h2, h3⟩ := hi k hk
  have := hm.shared k
  have := hm.exclusive k
  refine ⟨by show g.shared k = _; omega, by show g.exclusive k = _; omega, ?_⟩
  show (decide (k = s) || g.present k) = _
  rw [create_present, h3]

theorem borrowView_take {env st st' : Cells} {n : Nat} {s : Nat} {x create trackOk all : Bool} {o : Option View} {g : Lent}
    (he : SameEnv env st) (hg : Good st (n + 1)) (hs : all = true → (st.cell allCell).shared ≠ 0) (hl : s ≠ allCell) (hi : g.Is st)
    (h : st.borrowView s x create trackOk all = .ok (st', o)) :
    o.isSome = (g.take env (.view s x create trackOk)).2 ∧ (g.take env (.view s x create trackOk)).1.Is st' := by
  obtain ⟨_, _, h1, hg', hm, hv⟩ := borrowView_spec s x create trackOk all hg hs
  rw [h] at h1
  cases h1
  have hcreate : ∃ st0 g0, (if create then st.create s else st) = st0 ∧ (if create then g.make s else g) = g0 ∧ g0.Is st0
      ∧ Good st0 (n + 1) ∧ Moves st st0 (fun _ => 0) (fun _ => 0) := by
    cases create with
    | true => obtain ⟨h1, h2, _⟩ := create_spec s hg; exact ⟨_, _, rfl, rfl, make_is hg hi s, h1, h2⟩
    | false => exact ⟨_, _, rfl, rfl, hi, hg, Moves.refl st⟩
  obtain ⟨st0, g0, e1, e2, hi0, hg0, hm0⟩ := hcreate
  rw [Lent.take]
  unfold Cells.borrowView at h
  rw [e1] at h
  simp only [e2]
  have hb := busy_taken (x := x) (he.moves hm0) hi0 hl
  have hp := (hi0 s hl).2.2
  have key : o.isSome = decide (g0.present s = true ∧ g0.busy env s x = false ∧ trackOk = true) ∧ st'.present = st0.present := by
    dsimp only at h
    cases hp0 : st0.present s with
    | false =>
      rw [if_pos hp0] at h
      cases h1 : st0.dropAll all with
      | error e => rw [h1] at h; cases h
      | ok st1 =>
        rw [h1] at h; cases h
        exact ⟨by rw [hp, hp0]; simp, dropAll_present h1⟩
    | true =>
      rw [if_neg (by rw [hp0]; simp)] at h
      cases h2 : st0.guard s x with
      | error e => rw [h2] at h; cases h
      | ok p =>
        obtain ⟨st1, got⟩ := p
        rw [h2] at h
        have hgot := guard_got hg0 h2
        rw [← hb] at hgot
        simp only [Except.bind] at h
        cases got with
        | false =>
          rw [if_pos rfl] at h
          cases h1 : st1.dropAll all with
          | error e => rw [h1] at h; cases h
          | ok st2 =>
            rw [h1] at h; cases h
            have : g0.busy env s x = true := by simpa using hgot.symm
            exact ⟨by simp [this], (dropAll_present h1).trans (guard_present h2)⟩
        | true =>
          rw [if_neg (by simp)] at h
          have hfree : g0.busy env s x = false := by simpa using hgot.symm
          cases trackOk with
          | false =>
            rw [if_pos rfl] at h
            cases h3 : st1.dropGuard s x with
            | error e => rw [h3] at h; cases h
            | ok st2 =>
              rw [h3] at h
              cases h1 : st2.dropAll all with
              | error e => simp only [h1] at h; cases h
              | ok st3 =>
                simp only [h1] at h; cases h
                exact ⟨by simp, (dropAll_present h1).trans ((dropGuard_present h3).trans (guard_present h2))⟩
          | true =>
            rw [if_neg (by simp)] at h
            cases h
            exact ⟨by simp [hfree, hp, hp0], guard_present h2⟩
  obtain ⟨k1, k2⟩ := key
  split
  · rename_i hc
    rw [decide_eq_true hc] at k1
    refine ⟨k1, fun k hk => ?_⟩
    obtain ⟨v, rfl⟩ := Option.isSome_iff_exists.1 k1
    obtain ⟨rfl, _⟩ := hv v rfl
    obtain ⟨i1, i2, i3⟩ := hi0 k hk
    have m1 := hm.shared k
    have m2 := hm.exclusive k
    have m3 := hm0.shared k
    have m4 := hm0.exclusive k
    simp only [heldS, heldX, View.sharedOn, View.exclusiveOn, allD, hk, false_and, and_false, if_false] at m1 m2
    unfold Lent.lend
    cases x <;> by_cases hks : k = s <;> simp only [hks, if_true, if_false, true_and, false_and, and_true, Bool.false_eq_true,
      reduceCtorEq, k2] at * <;> (refine ⟨?_, ?_, ?_⟩ <;> first | omega | assumption)
  · rename_i hc
    rw [decide_eq_false hc] at k1
    refine ⟨k1, fun k hk => ?_⟩
    cases o with
    | some v => cases k1
    | none =>
      obtain ⟨i1, i2, i3⟩ := hi0 k hk
      have m1 := hm.shared k
      have m2 := hm.exclusive k
      have m3 := hm0.shared k
      have m4 := hm0.exclusive k
      simp only [heldS, heldX, allD, hk, and_false, if_false] at m1 m2
      exact ⟨by show g0.shared k = _; omega, by show g0.exclusive k = _; omega, by rw [k2]; exact i3⟩

mutual
theorem borrow_take (r : Req) {env st st' : Cells} {n : Nat} {all : Bool} {o : Option View} {g : Lent}
    (he : SameEnv env st) (hg : Good st (n + r.cost)) (hs : all = true → (st.cell allCell).shared ≠ 0)
    (hl : ∀ l ∈ r.leaves, l.1 ≠ allCell) (hi : g.Is st) (h : st.borrow all r = .ok (st', o)) :
    o.isSome = (g.take env r).2 ∧ (g.take env r).1.Is st' := by
  obtain ⟨_, _, h1, hg', hm, hv⟩ := borrow_spec r all hg hs
  rw [h] at h1
  cases h1
  match r with
  | .unit =>
    rw [Cells.borrow] at h
    rw [Lent.take]
    cases h1 : st.dropAll all with
    | error e => rw [h1] at h; cases h
    | ok st1 =>
      rw [h1] at h; cases h
      refine ⟨rfl, fun k hk => ?_⟩
      obtain ⟨i1, i2, i3⟩ := hi k hk
      have m1 := hm.shared k
      have m2 := hm.exclusive k
      simp only [heldS, heldX, View.sharedOn, View.exclusiveOn, allD, hk, and_false, if_false] at m1 m2
      exact ⟨by show g.shared k = _; omega, by show g.exclusive k = _; omega, by rw [dropAll_present h1]; exact i3⟩
  | .view s x create trackOk =>
    rw [Cells.borrow] at h
    exact borrowView_take he hg hs (hl (s, x) (by simp [Req.leaves])) hi h
  | .opt r =>
    rw [Cells.borrow] at h
    cases h1 : st.borrow all r with
    | error e => rw [h1] at h; cases h
    | ok p =>
      obtain ⟨st1, o1⟩ := p
      rw [h1] at h
      cases h
      obtain ⟨t1, t2⟩ := borrow_take r he (by simpa only [Req.cost] using hg) hs (by simpa only [Req.leaves] using hl) hi h1
      rw [Lent.take]
      exact ⟨rfl, t2⟩
  | .tuple rs =>
    rw [Cells.borrow] at h
    cases h1 : st.borrowEach all rs with
    | error e => rw [h1] at h; cases h
    | ok p =>
      obtain ⟨st1, o1⟩ := p
      rw [h1] at h
      simp only [Except.bind] at h
      obtain ⟨t1, t2⟩ := borrowEach_take rs he (by simpa only [Req.cost] using hg) hs (by simpa only [Req.leaves] using hl) hi h1
      obtain ⟨_, _, b1, b2, b3, _⟩ := borrowEach_spec rs all (by simpa only [Req.cost] using hg) hs
      rw [h1] at b1
      cases b1
      cases h2 : st1.dropAll all with
      | error e => rw [h2] at h; cases h
      | ok st2 =>
        rw [h2] at h
        cases h
        rw [Lent.take]
        refine ⟨by rw [← t1]; cases o1 <;> rfl, fun k hk => ?_⟩
        obtain ⟨i1, i2, i3⟩ := t2 k hk
        have m1 := hm.shared k
        have m2 := hm.exclusive k
        have m3 := b3.shared k
        have m4 := b3.exclusive k
        have c1 : heldS (o1.map .tuple) k = heldAllS o1 k := by cases o1 <;> simp [heldS, heldAllS, View.sharedOn]
        have c2 : heldX (o1.map .tuple) k = heldAllX o1 k := by cases o1 <;> simp [heldX, heldAllX, View.exclusiveOn]
        simp only [c1, c2, allD, hk, and_false, if_false] at m1 m2
        exact ⟨by omega, by omega, by rw [dropAll_present h2]; exact i3⟩
theorem borrowEach_take (rs : List Req) {env st st' : Cells} {n : Nat} {all : Bool} {o : Option (List View)} {g : Lent}
    (he : SameEnv env st) (hg : Good st (n + Req.costAll rs)) (hs : all = true → (st.cell allCell).shared ≠ 0)
    (hl : ∀ l ∈ Req.leavesAll rs, l.1 ≠ allCell) (hi : g.Is st) (h : st.borrowEach all rs = .ok (st', o)) :
    o.isSome = (g.takeAll env rs).2 ∧ (g.takeAll env rs).1.Is st' := by
  obtain ⟨_, _, h1, hg', hm, hv⟩ := borrowEach_spec rs all hg hs
  rw [h] at h1
  cases h1
  match rs with
  | [] =>
    rw [Cells.borrowEach] at h
    cases h
    rw [Lent.takeAll]
    exact ⟨rfl, hi⟩
  | r :: rs =>
    rw [Cells.borrowEach] at h
    simp only [Req.costAll] at hg
    have hg1 : Good st (n + Req.costAll rs + r.cost + 1) := hg.mono (by omega)
    obtain ⟨st1, a1, a2, a3⟩ := cloneAll_spec all hg1 hs
    rw [a1] at h
    have hi1 : g.Is st1 := fun k hk => by
      obtain ⟨i1, i2, i3⟩ := hi k hk
      have m1 := a3.shared k
      have m2 := a3.exclusive k
      have : (if all = true then only allCell 1 else fun _ => 0) k = 0 := by
        cases all <;> simp [only, hk]
      exact ⟨by omega, by omega, by rw [cloneAll_present a1]; exact i3⟩
    have hs1 : all = true → (st1.cell allCell).shared ≠ 0 := fun ha => by
      have m1 := a3.shared allCell
      have := hs ha
      subst ha
      simp [only] at m1
      omega
    obtain ⟨st2, o2, b1, b2, b3, b4⟩ := borrow_spec r all a2 hs1
    simp only [b1, Except.bind] at h
    obtain ⟨t1, t2⟩ := borrow_take r (he.moves a3) a2 hs1 (fun l hl' => hl l (by simp [Req.leavesAll, hl'])) hi1 b1
    have hfail : o = none → ∀ k, k ≠ allCell → g.shared k = (st'.cell k).shared ∧ g.exclusive k = (st'.cell k).exclusive := fun ho k hk => by
      obtain ⟨i1, i2, i3⟩ := hi k hk
      have m1 := hm.shared k
      have m2 := hm.exclusive k
      subst ho
      simp only [heldAllS, heldAllX] at m1 m2
      exact ⟨by omega, by omega⟩
    rw [Lent.takeAll]
    cases o2 with
    | none =>
      cases h
      generalize g.take env r = q at t1 t2 ⊢
      obtain ⟨g', b⟩ := q
      cases t1
      refine ⟨rfl, fun k hk => ?_⟩
      obtain ⟨f1, f2⟩ := hfail rfl k hk
      exact ⟨f1, f2, (t2 k hk).2.2⟩
    | some v =>
      simp only at h
      have hs2 : all = true → (st2.cell allCell).shared ≠ 0 := fun ha => by
        have m1 := a3.shared allCell
        have m2 := b3.shared allCell
        have := hs ha
        subst ha
        simp [only, heldS, allD] at m1 m2
        omega
      have he2 := (he.moves a3).moves b3
      obtain ⟨st3, o3, c1, c2, c3, c4⟩ := borrowEach_spec rs all b2 hs2
      simp only [c1] at h
      generalize g.take env r = q at t1 t2 ⊢
      obtain ⟨g', b⟩ := q
      cases t1
      obtain ⟨u1, u2⟩ := borrowEach_take rs he2 b2 hs2 (fun l hl' => hl l (by simp [Req.leavesAll, hl'])) t2 c1
      simp only
      cases o3 with
      | some vs =>
        cases h
        generalize g'.takeAll env rs = q at u1 u2 ⊢
        obtain ⟨g'', b⟩ := q
        cases u1
        exact ⟨rfl, u2⟩
      | none =>
        simp only at h
        cases h3 : st3.dropView v with
        | error e => rw [h3] at h; cases h
        | ok st4 =>
          rw [h3] at h
          cases h
          generalize g'.takeAll env rs = q at u1 u2 ⊢
          obtain ⟨g'', b⟩ := q
          cases u1
          refine ⟨rfl, fun k hk => ?_⟩
          obtain ⟨f1, f2⟩ := hfail rfl k hk
          exact ⟨f1, f2, by rw [dropView_present v h3]; exact (u2 k hk).2.2⟩
end

end Verif.Borrow

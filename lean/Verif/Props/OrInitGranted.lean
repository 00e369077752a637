import Verif.Props.OrInitBorrow
import Verif.Props.Lend

/-!
# C39: exactly when a `UniqueOrInitView` or `UniqueOrDefaultView` is given
-/
namespace Verif.Borrow

/-- The guard of `AllStorages` was given: what is lent of the other storages is the same. -/
theorem is_after_all {st st1 : Cells} {d : Int} (h : Moves st st1 (only allCell d) (only allCell 0)) (hp : st1.present = st.present) :
    (Lent.of st).Is st1 := fun k hk => by
  have m1 := h.shared k
  have m2 := h.exclusive k
  simp only [only, hk, if_false] at m1 m2
  exact ⟨by show (st.cell k).shared = _; omega, by show (st.cell k).exclusive = _; omega, by rw [hp]; rfl⟩

theorem all_got {st st1 : Cells} {n : Nat} {got : Bool} (hg : Good st (n + 1)) (hsync : st.isSync allCell = true)
    (h : st.guard allCell false = .ok (st1, got)) : got = decide ((st.cell allCell).exclusive = 0) := by
  rw [guard_got hg h]
  unfold Cells.taken elsewhere
  rw [hsync]
  simp

/-- C39: a `UniqueOrInitView` of the unique `s` is given exactly when `AllStorages` is not lent exclusively and the unique is missing or
free. -/
theorem C39_or_init_granted (s : Nat) (x : Bool) {st : Cells} (hok : st.Ok) (hr : st.Room 3) (hsync : st.isSync allCell = true)
    (hs : s ≠ allCell) :
    ∃ st' o, st.orInit s x = .ok (st', o) ∧
      (o.isSome = true ↔ (st.cell allCell).exclusive = 0 ∧ (st.present s = false ∨ (Lent.of st).busy st s x = false)) := by
  obtain ⟨st', o, h, _⟩ := C39_or_init s x hok hr
  refine ⟨st', o, h, ?_⟩
  have hg : Good st (2 + 1) := Good.of hok hr
  obtain ⟨st1, got, h1, h2, h3, _⟩ := guard_spec allCell false hg hok.base.1
  have e := all_got hg hsync h1
  unfold Cells.orInit at h
  simp only [h1, Except.bind] at h
  cases got with
  | false =>
    cases h
    simp at e
    simp [e]
  | true =>
    simp only [Bool.true_eq_false, if_false] at h
    simp at e
    have e1 := h3.shared allCell
    simp [only] at e1
    obtain ⟨st2, h4, h5, h6⟩ := cloneAll_spec (n := 1) true h2 (fun _ => by omega)
    rw [h4] at h
    dsimp only at h
    have e2 := h6.shared allCell
    simp [only] at e2
    have hp : st2.present = st.present := (cloneAll_present h4).trans (guard_present h1)
    obtain ⟨st3, o3, h7, h8, h9, _⟩ := borrowView_spec (n := 0) s x false true true (h5.mono (by omega)) (fun _ => by omega)
    have hi : (Lent.of st).Is st2 := is_after_all (d := 2)
      ((h3.trans h6).congr (fun k => by by_cases hk : k = allCell <;> simp [only, hk]) (fun k => by simp [only])) hp
    have ht := (borrowView_take (n := 0) (((show SameEnv st st from ⟨rfl, rfl, rfl⟩).moves h3).moves h6) (h5.mono (by omega))
      (fun _ => by omega) hs hi h7).1
    rw [h7] at h
    dsimp only at h
    rw [Lent.take] at ht
    simp only [Bool.false_eq_true, if_false, and_true] at ht
    have hpr : (Lent.of st).present s = st.present s := rfl
    rw [hpr] at ht
    cases o3 with
    | some v =>
      cases h
      by_cases hc : st.present s = true ∧ (Lent.of st).busy st s x = false
      · simp [e, hc.2]
      · rw [if_neg hc] at ht
        cases ht
    | none =>
      dsimp only at h
      rw [hp] at h
      have hc : ¬ (st.present s = true ∧ (Lent.of st).busy st s x = false) := fun hc => by
        rw [if_pos hc] at ht
        cases ht
      cases hps : st.present s with
      | false =>
        rw [hps, if_pos rfl] at h
        cases h
        simp [e]
      | true =>
        rw [hps] at h hc
        simp only [Bool.true_eq_false, if_false] at h
        cases hd : st3.dropAll true with
        | error f => rw [hd] at h; cases h
        | ok st4 =>
          rw [hd] at h
          cases h
          simpa [e] using hc

/-- C39: a `UniqueOrDefaultView` of the unique `s` is given exactly when `AllStorages` is not lent exclusively and the unique is free. A
missing unique is made. -/
theorem C39_or_default_granted (s : Nat) (x : Bool) {st : Cells} (hok : st.Ok) (hr : st.Room 3) (hsync : st.isSync allCell = true)
    (hs : s ≠ allCell) :
    ∃ st' o, st.orDefault s x = .ok (st', o) ∧
      (o.isSome = true ↔ (st.cell allCell).exclusive = 0 ∧ (Lent.of st).busy st s x = false) := by
  obtain ⟨st', o, h, _⟩ := C39_or_default s x hok hr
  refine ⟨st', o, h, ?_⟩
  have hg : Good st (2 + 1) := Good.of hok hr
  obtain ⟨st1, got, h1, h2, h3, _⟩ := guard_spec allCell false hg hok.base.1
  have e := all_got hg hsync h1
  unfold Cells.orDefault at h
  simp only [h1, Except.bind] at h
  cases got with
  | false =>
    cases h
    simp at e
    simp [e]
  | true =>
    simp only [Bool.true_eq_false, if_false] at h
    simp at e
    have e1 := h3.shared allCell
    simp [only] at e1
    have hp := guard_present h1
    have he1 := (show SameEnv st st from ⟨rfl, rfl, rfl⟩).moves h3
    rw [hp] at h
    cases hps : st.present s with
    | false =>
      rw [hps, if_pos rfl] at h
      obtain ⟨c1, c2, c3⟩ := create_spec s h2
      have e2 := c2.shared allCell
      simp at e2
      have hi : ((Lent.of st).make s).Is (st1.create s) := fun k hk => by
        have m1 := h3.shared k
        have m2 := h3.exclusive k
        have m3 := c2.shared k
        have m4 := c2.exclusive k
        simp only [only, hk, if_false] at m1 m2
        refine ⟨by show (st.cell k).shared = _; omega, by show (st.cell k).exclusive = _; omega, ?_⟩
        show (decide (k = s) || st.present k) = _
        by_cases hks : k = s
        · subst hks; simp [c3]
        · rw [← hp]; unfold Cells.create; split <;> simp [hks]
      have ht := (borrowView_take (n := 1) (he1.moves c2) c1 (fun _ => by omega) hs hi h).1
      rw [ht, Lent.take]
      have hb : ((Lent.of st).make s).busy st s x = (Lent.of st).busy st s x := rfl
      have hm : ((Lent.of st).make s).present s = true := by simp [Lent.make]
      simp only [Bool.false_eq_true, if_false, and_true, hb, hm, true_and]
      by_cases hc : (Lent.of st).busy st s x = false <;> simp [hc, e]
    | true =>
      rw [hps] at h
      simp only [Bool.true_eq_false, if_false] at h
      have hi : (Lent.of st).Is st1 := is_after_all (d := 1)
        (h3.congr (fun k => by simp [only]) (fun k => by simp [only])) hp
      obtain ⟨st2, o2, h4, h5, h6, h7⟩ := borrowView_spec (n := 1) s x false true false h2 (fun h => by cases h)
      obtain ⟨ht, hi2⟩ := borrowView_take (n := 1) he1 h2 (fun h => by cases h) hs hi h4
      rw [Lent.take] at ht
      have hpr : (Lent.of st).present s = true := hps
      simp only [Bool.false_eq_true, if_false, and_true, hpr, true_and] at ht
      rw [h4] at h
      dsimp only at h
      cases o2 with
      | none =>
        dsimp only at h
        have hc : ¬ (Lent.of st).busy st s x = false := fun hc => by
          rw [if_pos hc] at ht
          cases ht
        cases hd : st2.dropAll true with
        | error f => rw [hd] at h; cases h
        | ok st4 =>
          rw [hd] at h
          cases h
          simpa [e] using hc
      | some v =>
        have hc : (Lent.of st).busy st s x = false := Classical.byContradiction fun hc => by
          rw [if_neg hc] at ht
          cases ht
        obtain ⟨rfl, hcl⟩ := h7 v rfl
        obtain ⟨st3, h8, h9, h10⟩ := dropView_spec (.view s x false) h5 hcl (fun k => by
          have a := h6.shared k
          have b := h6.exclusive k
          simp only [heldS, heldX, allD, Bool.false_eq_true, false_and, if_false] at a b
          constructor <;> omega)
        dsimp only at h
        rw [h8] at h
        dsimp only at h
        have a := h6.shared allCell
        have b := h10.shared allCell
        simp only [heldS, allD, Bool.false_eq_true, false_and, if_false] at a b
        have hi3 : (Lent.of st).Is st3 := fun k hk => by
          have m1 := h3.shared k
          have m2 := h3.exclusive k
          have m3 := h6.shared k
          have m4 := h6.exclusive k
          have m5 := h10.shared k
          have m6 := h10.exclusive k
          simp only [only, hk, if_false, heldS, heldX, allD, Bool.false_eq_true, false_and] at m1 m2 m3 m4
          refine ⟨by show (st.cell k).shared = _; omega, by show (st.cell k).exclusive = _; omega, ?_⟩
          have q := (hi2 k hk).2.2
          rw [Lent.take] at q
          simp only [Bool.false_eq_true, if_false, hpr, hc, and_self, if_true] at q
          rw [dropView_present _ h8, ← q]
          cases x <;> rfl
        have ht3 := (borrowView_take (n := 0) ((he1.moves h6).moves h10) h9 (fun _ => by omega) hs hi3 h).1
        rw [ht3, Lent.take]
        simp [hpr, hc, e]

/-- The unique 2 of `Ex.busy` is lent exclusively; 3 is missing. -/
example : (Lent.of Ex.busy).busy Ex.busy 2 false = true ∧ Ex.busy.present 2 = true ∧ Ex.busy.present 3 = false
    ∧ Ex.busy.isSync allCell = true ∧ (Ex.busy.cell allCell).exclusive = 0 := by
  refine ⟨?_, ?_, ?_, ?_, ?_⟩ <;> decide +kernel

end Verif.Borrow

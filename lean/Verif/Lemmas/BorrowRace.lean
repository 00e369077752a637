import Verif.Lemmas.BorrowViews
import Verif.Model.BorrowRace

/-!
# Threads with compatible footprints never refuse each other a borrow
-/
namespace Verif.Borrow

/-- What a thread does with a cell: nothing, shared guards only, or alone. -/
inductive Mode where
  | nothing
  | shared
  | sole
  deriving DecidableEq

/-- The guards a thread holds. -/
structure Held where
  s : Nat → Nat
  x : Nat → Nat

def Held.zero : Held := ⟨fun _ => 0, fun _ => 0⟩

def bump (f : Nat → Nat) (k : Nat) (d : Nat → Nat) : Nat → Nat := fun s => if s = k then d (f s) else f s

/-- The guards after a step. -/
def Held.after (h : Held) : Act → Held
  | .borrow s false => { h with s := bump h.s s (· + 1) }
  | .borrow s true => { h with x := bump h.x s (· + 1) }
  | .clone => { h with s := bump h.s allCell (· + 1) }
  | .drop s false => { h with s := bump h.s s (· - 1) }
  | .drop s true => { h with x := bump h.x s (· - 1) }

/-- The cell is borrowed by `exclusive_read`. -/
def soleRead (st : Cells) (s : Nat) : Prop := st.isSync s = false ∧ st.owner s = none

/-- The step fits the footprint. -/
def Allowed (st : Cells) (me : Nat) (m : Nat → Mode) (h : Held) : Act → Prop
  | .borrow s true => m s = .sole ∧ h.s s = 0 ∧ h.x s = 0 ∧ ∀ t, st.owner s = some t → t = me
  | .borrow s false => (m s = .shared ∧ ¬ soleRead st s ∨ m s = .sole ∧ h.s s = 0 ∧ h.x s = 0)
      ∧ (st.isSync s = false → ∀ t, st.owner s = some t → t = me)
  | .clone => m allCell = .shared ∧ h.s allCell ≠ 0
  | .drop s false => m s ≠ .nothing ∧ h.s s ≠ 0
  | .drop s true => m s = .sole ∧ h.x s ≠ 0

/-- All the steps fit the footprint. -/
def Safe (st : Cells) (me : Nat) (m : Nat → Mode) (h : Held) : List Act → Prop
  | [] => True
  | a :: as => Allowed st me m h a ∧ Safe st me m (h.after a) as

/-- The guards fit the footprint. -/
def Fit (m : Nat → Mode) (h : Held) : Prop :=
  ∀ s, (m s = .nothing → h.s s = 0 ∧ h.x s = 0) ∧ (m s = .shared → h.x s = 0)

theorem Fit.after {st : Cells} {me : Nat} {m : Nat → Mode} {h : Held} {a : Act} (hf : Fit m h) (ha : Allowed st me m h a) :
    Fit m (h.after a) := by
  intro s
  have := hf s
  cases a with
  | borrow k x =>
    by_cases hk : s = k
    · subst hk
      cases x <;> simp only [Allowed, Held.after, bump, if_true] at *
      · refine ⟨fun hm => ?_, this.2⟩
        rcases ha.1 with h | h <;> rw [hm] at h <;> exact absurd h.1 (by simp)
      · rw [ha.1]
        simp
    · cases x <;> simp only [Held.after, bump, hk, if_false] <;> exact this
  | clone =>
    by_cases hk : s = allCell
    · simp only [Allowed, Held.after, bump, hk, if_true] at *
      rw [ha.1]
      refine ⟨by simp, fun _ => this.2 ha.1⟩
    · simp only [Held.after, bump, hk, if_false]; exact this
  | drop k x =>
    by_cases hk : s = k
    · subst hk
      cases x <;> simp only [Allowed, Held.after, bump, if_true] at *
      · exact ⟨fun hm => absurd hm ha.1, this.2⟩
      · rw [ha.1]
        simp
    · cases x <;> simp only [Held.after, bump, hk, if_false] <;> exact this

/-! ## Sums over threads -/

def sumTo (k : Nat) (f : Nat → Nat) : Nat := ((List.range k).map f).sum

theorem sumTo_succ (k : Nat) (f : Nat → Nat) : sumTo (k + 1) f = sumTo k f + f k := by
  unfold sumTo
  rw [List.range_succ, List.map_append, List.sum_append]
  simp

def upd {α : Type} (f : Nat → α) (i : Nat) (v : α) : Nat → α := fun j => if j = i then v else f j

theorem sumTo_congr {k : Nat} {f g : Nat → Nat} (h : ∀ j, j < k → f j = g j) : sumTo k f = sumTo k g := by
  induction k with
  | zero => rfl
  | succ k ih => rw [sumTo_succ, sumTo_succ, ih (fun j hj => h j (by omega)), h k (by omega)]

theorem sumTo_upd {k i : Nat} (hi : i < k) (f : Nat → Nat) (v : Nat) : sumTo k (upd f i v) + f i = sumTo k f + v := by
  induction k with
  | zero => omega
  | succ k ih =>
    rw [sumTo_succ, sumTo_succ]
    by_cases hk : i = k
    · subst hk
      have : sumTo i (upd f i v) = sumTo i f := sumTo_congr (fun j hj => by simp [upd, Nat.ne_of_lt hj])
      rw [this]
      simp [upd]
      omega
    · have := ih (by omega)
      have e : upd f i v k = f k := by simp [upd, Ne.symm hk]
      rw [e]
      omega

theorem sumTo_zero {k : Nat} {f : Nat → Nat} (h : ∀ j, j < k → f j = 0) : sumTo k f = 0 := by
  rw [sumTo_congr h]
  induction k with
  | zero => rfl
  | succ k ih => rw [sumTo_succ, ih (fun j hj => h j (by omega))]

theorem sumTo_le {k i : Nat} (hi : i < k) (f : Nat → Nat) : f i ≤ sumTo k f := by
  have := sumTo_upd hi f 0
  omega

/-! ## The invariant -/

theorem remaining_set {ts : List Runner} {i me : Nat} {a : Act} {rest : List Act} (h : ts[i]? = some ⟨me, a :: rest⟩) :
    remaining ts = remaining (ts.set i ⟨me, rest⟩) + 1 := by
  induction ts generalizing i with
  | nil => simp at h
  | cons t ts ih =>
    unfold remaining at *
    cases i with
    | zero =>
      simp only [List.getElem?_cons_zero, Option.some.injEq] at h
      subst h
      simp only [List.set_cons_zero, List.map_cons, List.sum_cons, List.length_cons]
      omega
    | succ i =>
      simp only [List.getElem?_cons_succ] at h
      have := ih h
      simp only [List.set_cons_succ, List.map_cons, List.sum_cons]
      omega

/-- The threads are at `ts`, thread `i` holds `held i`. -/
structure RaceInv (base : Cells) (mode : Nat → Nat → Mode) (held : Nat → Held) (st : Cells) (ts : List Runner) : Prop where
  good : Good st (remaining ts)
  owner : st.owner = base.owner
  isSync : st.isSync = base.isSync
  shared : ∀ s, (st.cell s).shared = sumTo ts.length fun i => (held i).s s
  exclusive : ∀ s, (st.cell s).exclusive = sumTo ts.length fun i => (held i).x s
  reborrowed : ∀ s, (st.cell s).reborrowed = 0
  safe : ∀ (i : Nat) t, ts[i]? = some t → Safe base t.me (mode i) (held i) t.todo
  fit : ∀ i, i < ts.length → Fit (mode i) (held i)
  present : ∀ s, st.present s = false → ∀ i, i < ts.length → (held i).s s = 0 ∧ (held i).x s = 0

/-- At most one thread when one of them is alone. -/
def Compatible (mode : Nat → Nat → Mode) (k : Nat) : Prop :=
  ∀ i j s, i < k → j < k → i ≠ j → mode i s = .sole → mode j s = .nothing

theorem Good.withMe {st : Cells} {n : Nat} (h : Good st n) (me : Nat) : Good { st with me := me } n :=
  ⟨⟨h.ok.reach, h.ok.absent, h.ok.base⟩, h.room⟩

theorem sum_alone {k i : Nat} (hi : i < k) {f : Nat → Nat} (h : ∀ j, j < k → j ≠ i → f j = 0) : sumTo k f = f i := by
  have h0 := sumTo_upd hi f 0
  have : sumTo k (upd f i 0) = 0 := sumTo_zero (fun j hj => by
    unfold upd
    by_cases hji : j = i
    · simp [hji]
    · simp [hji, h j hj hji])
  omega

theorem RaceInv.step {base : Cells} {mode : Nat → Nat → Mode} {held : Nat → Held} {st : Cells} {ts : List Runner}
    (h : RaceInv base mode held st ts) (hc : Compatible mode ts.length) {i me : Nat} {a : Act} {rest : List Act}
    (hi : ts[i]? = some ⟨me, a :: rest⟩) :
    ∃ st', st.exec me a = .ok (st', true)
      ∧ RaceInv base mode (upd held i ((held i).after a)) st' (ts.set i ⟨me, rest⟩) := by
  have hil : i < ts.length := (List.getElem?_eq_some_iff.mp hi).1
  have hrem := remaining_set hi
  have hsafe := h.safe i _ hi
  obtain ⟨hal, hsafe'⟩ := hsafe
  have hfit := h.fit i hil
  have hsole : ∀ s, mode i s = .sole → ∀ j, j < ts.length → j ≠ i → (held j).s s = 0 ∧ (held j).x s = 0 := by
    intro s hs j hj hji
    exact (h.fit j hj s).1 (hc i j s hil hj (Ne.symm hji) hs)
  -- what remains to be shown about the new state
  have build : ∀ st', Good st' (remaining (ts.set i ⟨me, rest⟩)) → st'.owner = st.owner → st'.isSync = st.isSync →
      (∀ s, (st'.cell s).reborrowed = (st.cell s).reborrowed) →
      (∀ s, (st'.cell s).shared + (held i).s s = (st.cell s).shared + ((held i).after a).s s) →
      (∀ s, (st'.cell s).exclusive + (held i).x s = (st.cell s).exclusive + ((held i).after a).x s) →
      (∀ s, st'.present s = false → st.present s = false ∧ ((held i).after a).s s = 0 ∧ ((held i).after a).x s = 0) →
      RaceInv base mode (upd held i ((held i).after a)) st' (ts.set i ⟨me, rest⟩) := by
    intro st' hg ho hy hr hsh hex hpr
    refine ⟨hg, ho.trans h.owner, hy.trans h.isSync, fun s => ?_, fun s => ?_, fun s => (hr s).trans (h.reborrowed s), ?_, ?_, ?_⟩
    · rw [List.length_set]
      have e := sumTo_upd hil (fun j => (held j).s s) (((held i).after a).s s)
      have e' : sumTo ts.length (upd (fun j => (held j).s s) i (((held i).after a).s s))
          = sumTo ts.length fun j => (upd held i ((held i).after a) j).s s :=
        sumTo_congr (fun j _ => by unfold upd; by_cases hj : j = i <;> simp [hj])
      have := hsh s
      have := h.shared s
      omega
    · rw [List.length_set]
      have e := sumTo_upd hil (fun j => (held j).x s) (((held i).after a).x s)
      have e' : sumTo ts.length (upd (fun j => (held j).x s) i (((held i).after a).x s))
          = sumTo ts.length fun j => (upd held i ((held i).after a) j).x s :=
        sumTo_congr (fun j _ => by unfold upd; by_cases hj : j = i <;> simp [hj])
      have := hex s
      have := h.exclusive s
      omega
    · intro j t hj
      by_cases hji : j = i
      · subst hji
        rw [List.getElem?_set_self hil] at hj
        cases hj
        simpa [upd] using hsafe'
      · rw [List.getElem?_set_ne (Ne.symm hji)] at hj
        simpa [upd, hji] using h.safe j t hj
    · intro j hj
      rw [List.length_set] at hj
      by_cases hji : j = i
      · subst hji
        simpa [upd] using hfit.after hal
      · simpa [upd, hji] using h.fit j hj
    · intro s hs j hj
      rw [List.length_set] at hj
      by_cases hji : j = i
      · subst hji
        simpa [upd] using (hpr s hs).2
      · simpa [upd, hji] using h.present s (hpr s hs).1 j hj
  have hg := h.good
  rw [hrem] at hg
  have hgm := hg.withMe me
  have hpresent : ∀ s, (held i).s s ≠ 0 ∨ (held i).x s ≠ 0 → st.present s = true := by
    intro s hs
    cases hp : st.present s with
    | true => rfl
    | false =>
      have := h.present s hp i hil
      omega
  cases a with
  | borrow s x =>
    obtain ⟨c1, c2, c3⟩ := create_spec s hgm
    obtain ⟨st', got, g1, g2, g3, g4, g5⟩ := guard_spec (n := remaining (ts.set i ⟨me, rest⟩)) s x c1 c3
    have z1 := c2.shared s
    have z2 := c2.exclusive s
    have z3 := c2.reborrowed s
    have zo : (({ st with me := me } : Cells).create s).owner s = base.owner s := by
      rw [c2.setup.owner]; exact congrFun h.owner s
    have zy : (({ st with me := me } : Cells).create s).isSync s = base.isSync s := by
      rw [c2.setup.isSync]; exact congrFun h.isSync s
    have zm : (({ st with me := me } : Cells).create s).me = me := by
      rw [c2.setup.me]
    have hgot : got = true := by
      cases got with
      | true => rfl
      | false =>
        exfalso
        have hsh := h.shared s
        have hex := h.exclusive s
        have hrb := h.reborrowed s
        have alone : mode i s = .sole → (held i).s s = 0 → (held i).x s = 0 → (st.cell s).shared = 0 ∧ (st.cell s).exclusive = 0 := by
          intro hm h1 h2
          have a1 := sum_alone hil (f := fun j => (held j).s s) (fun j hj hji => (hsole s hm j hj hji).1)
          have a2 := sum_alone hil (f := fun j => (held j).x s) (fun j hj hji => (hsole s hm j hj hji).2)
          omega
        have noX : mode i s = .shared → (st.cell s).exclusive = 0 := by
          intro hm
          rw [hex]
          apply sumTo_zero
          intro j hj
          by_cases hji : j = i
          · subst hji
            exact (hfit s).2 hm
          · cases hmj : mode j s with
            | nothing => exact ((h.fit j hj s).1 hmj).2
            | shared => exact (h.fit j hj s).2 hmj
            | sole =>
              have := hc j i s hj hil hji hmj
              rw [hm] at this
              cases this
        have hz1 : ((({ st with me := me } : Cells).create s).cell s).shared = (st.cell s).shared := by
          have : (({ st with me := me } : Cells).cell s).shared = (st.cell s).shared := rfl
          omega
        have hz2 : ((({ st with me := me } : Cells).create s).cell s).exclusive = (st.cell s).exclusive := by
          have : (({ st with me := me } : Cells).cell s).exclusive = (st.cell s).exclusive := rfl
          omega
        have hz3 : ((({ st with me := me } : Cells).create s).cell s).reborrowed = 0 := z3.trans hrb
        have hre := g5 rfl
        unfold Refused Cell.guards at hre
        rw [hz1, hz2, hz3, zo, zy, zm] at hre
        cases x with
        | true =>
          obtain ⟨hm, hs0, hx0, how⟩ := hal
          have := alone hm hs0 hx0
          rcases hre with h1 | ⟨_, h1⟩ | ⟨_, t, h1, h2⟩
          · omega
          · omega
          · exact h2 (how t h1)
        | false =>
          obtain ⟨hm | ⟨hm, hs0, hx0⟩, how⟩ := hal
          · have h0 := noX hm.1
            rcases hre with h1 | ⟨h1, h2⟩ | ⟨h1, t, h2, h3⟩
            · exact h1 h0
            · rcases h1 with h1 | h1
              · cases h1
              · cases hown : base.owner s with
                | none => exact hm.2 ⟨h1, hown⟩
                | some t =>
                  -- read by the owner: only an exclusive guard refuses it
                  have hne := how h1 t hown
                  subst hne
                  have hgu : (({ st with me := t } : Cells).create s).guard s false = (({ st with me := t } : Cells).create s).act s .read := by
                    unfold Cells.guard
                    rw [zo, zy, zm, h1, hown]
                    simp [borrowEv]
                  obtain ⟨c', g, r1, r2, r3, r4, ⟨rfl, r5⟩ | ⟨rfl, r5, r6⟩⟩ := cell_read (c1.inv s) (c1.room s)
                  · rw [hgu] at g1
                    unfold Cells.act at g1
                    rw [r1] at g1
                    have := congrArg (fun r : Res (Cells × Bool) => r.toOption.map (·.2)) g1
                    simp [Except.toOption] at this
                  · exact r6 (by omega)
            · rcases h1 with h1 | h1
              · cases h1
              · exact h3 (how h1 t h2)
          · have := alone hm hs0 hx0
            rcases hre with h1 | ⟨_, h1⟩ | ⟨h1, t, h2, h3⟩
            · omega
            · omega
            · rcases h1 with h1 | h1
              · cases h1
              · exact h3 (how h1 t h2)
    subst hgot
    refine ⟨st', g1, build st' g2 ?_ ?_ ?_ ?_ ?_ ?_⟩
    · rw [g3.setup.owner, c2.setup.owner]
    · rw [g3.setup.isSync, c2.setup.isSync]
    · intro k
      rw [g3.reborrowed k, c2.reborrowed k]
    · intro k
      have e1 := g3.shared k
      have e2 := c2.shared k
      have e3 : (({ st with me := me } : Cells).cell k).shared = (st.cell k).shared := rfl
      cases x <;> by_cases hk : k = s <;> simp [only, Held.after, bump, hk] at * <;> omega
    · intro k
      have e1 := g3.exclusive k
      have e2 := c2.exclusive k
      have e3 : (({ st with me := me } : Cells).cell k).exclusive = (st.cell k).exclusive := rfl
      cases x <;> by_cases hk : k = s <;> simp [only, Held.after, bump, hk] at * <;> omega
    · intro k hk
      by_cases hks : k = s
      · subst hks
        rw [g3.setup.present k c3] at hk
        cases hk
      · have hp : st.present k = false := by
          cases hp : st.present k with
          | false => rfl
          | true =>
            rw [g3.setup.present k (c2.setup.present k hp)] at hk
            cases hk
        have := h.present k hp i hil
        refine ⟨hp, ?_⟩
        cases x <;> simp [Held.after, bump, hks, this]
  | clone =>
    obtain ⟨c', k1, k2, k3, k4, k5⟩ := cell_clone (n := remaining (ts.set i ⟨me, rest⟩)) (hgm.inv allCell) (hgm.room allCell) (by
      have := sumTo_le hil (fun j => (held j).s allCell)
      have e : ((({ st with me := me } : Cells).cell allCell)).shared = (st.cell allCell).shared := rfl
      rw [e, h.shared allCell]
      have := hal.2
      dsimp only at *
      omega)
    obtain ⟨ha, hgood⟩ := act_of hgm (by omega) k1 (.inl rfl) k2 (.inl hgm.ok.base.1)
    refine ⟨_, ha, build _ hgood rfl rfl ?_ ?_ ?_ ?_⟩
    · intro k
      by_cases hk : k = allCell
      · subst hk; simp [Cells.set, k3]
      · simp [Cells.set, hk]
    · intro k
      by_cases hk : k = allCell
      · subst hk
        simp [Cells.set, k5, Held.after, bump]
        omega
      · simp [Cells.set, hk, Held.after, bump]
    · intro k
      by_cases hk : k = allCell
      · subst hk; simp [Cells.set, k4, Held.after]
      · simp [Cells.set, hk, Held.after]
    · intro k hk
      have hp : st.present k = false := hk
      have hka : k ≠ allCell := by
        rintro rfl
        rw [hg.ok.base.1] at hp
        cases hp
      have := h.present k hp i hil
      exact ⟨hp, by simp [Held.after, bump, hka, this], by simp [Held.after, this]⟩
  | drop s x =>
    have hpos : x = false → (st.cell s).shared ≠ 0 := by
      rintro rfl
      have := sumTo_le hil (fun j => (held j).s s)
      rw [h.shared s]
      have := hal.2
      dsimp only at *
      omega
    have hposx : x = true → (st.cell s).exclusive ≠ 0 ∧ (st.cell s).reborrowed = 0 := by
      rintro rfl
      have := sumTo_le hil (fun j => (held j).x s)
      rw [h.exclusive s]
      have := hal.2
      dsimp only at *
      exact ⟨by omega, h.reborrowed s⟩
    have hpr : st.present s = true := by
      apply hpresent
      cases x with
      | false => exact .inl hal.2
      | true => exact .inr hal.2
    obtain ⟨st', d1, d2, d3⟩ := dropGuard_spec s x hgm hpr hpos hposx
    have hmine : x = false → (held i).s s ≠ 0 := by rintro rfl; exact hal.2
    have hminex : x = true → (held i).x s ≠ 0 := by rintro rfl; exact hal.2
    refine ⟨st', ?_, build st' (d2.mono (by omega)) d3.setup.owner d3.setup.isSync d3.reborrowed ?_ ?_ ?_⟩
    · simp only [Cells.exec]
      rw [d1]
      rfl
    · intro k
      have e1 := d3.shared k
      have e3 : (({ st with me := me } : Cells).cell k).shared = (st.cell k).shared := rfl
      cases x <;> by_cases hk : k = s <;> simp [only, Held.after, bump, hk] at * <;> omega
    · intro k
      have e1 := d3.exclusive k
      have e3 : (({ st with me := me } : Cells).cell k).exclusive = (st.cell k).exclusive := rfl
      cases x <;> by_cases hk : k = s <;> simp [only, Held.after, bump, hk] at * <;> omega
    · intro k hk
      have hp : st.present k = false := by
        cases hp : st.present k with
        | false => rfl
        | true =>
          rw [d3.setup.present k hp] at hk
          cases hk
      have := h.present k hp i hil
      refine ⟨hp, ?_⟩
      cases x <;> by_cases hks : k = s
      all_goals
        simp only [Held.after, bump, hks, if_true, if_false]
        try rw [← hks]
        omega

end Verif.Borrow

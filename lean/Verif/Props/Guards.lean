import Verif.Lemmas.Guards

/-!
# C69: exclusive access to storages excludes everyone else
-/
namespace Verif.Guards
open Borrow (Cell Ev Got)

theorem act_toks {st st' : St} {s : Nat} {e : Ev} {b : Bool} (h : st.act s e = .ok (st', b)) : st'.toks = st.toks := by
  obtain ⟨c, g, _, h2, _⟩ := act_ok h
  rw [h2]; rfl

/-- Values keep their type. -/
def SameKinds (ts ts' : List Token) : Prop :=
  ∀ (i : Nat) t, ts[i]? = some t → ∃ t', ts'[i]? = some t' ∧ t'.kind = t.kind

theorem SameKinds.refl (ts : List Token) : SameKinds ts ts := fun _ t h => ⟨t, h, rfl⟩

theorem SameKinds.push (ts : List Token) (u : Token) : SameKinds ts (ts ++ [u]) := by
  intro i t h
  obtain ⟨hl, _⟩ := List.getElem?_eq_some_iff.1 h
  exact ⟨t, by rw [List.getElem?_append, if_pos hl]; exact h, rfl⟩

theorem SameKinds.set {ts : List Token} {i : Nat} {t u : Token} (h : ts[i]? = some t) (hk : u.kind = t.kind) :
    SameKinds ts (ts.set i u) := by
  intro j v hj
  rw [set_get h]
  by_cases hji : j = i
  · subst hji
    rw [h] at hj
    cases hj
    exact ⟨u, by rw [if_pos rfl], hk⟩
  · exact ⟨v, by rw [if_neg hji]; exact hj, rfl⟩

theorem releaseStep_toks {st st' : St} {i : Nat} {t : Token} (h : st.releaseStep i t = .ok st') :
    ∃ u, u.kind = t.kind ∧ st'.toks = st.toks.set i u := by
  unfold St.releaseStep St.giveBackAll St.giveBack at h
  split at h
  · cases hact : st.act 0 .dropShared with
    | error f => rw [hact] at h; cases h
    | ok p =>
      obtain ⟨s1, b⟩ := p
      rw [hact] at h
      simp only [bind, Except.bind] at h
      injection h with h
      subst h
      exact ⟨{ t with all := false, live := false }, rfl, by show (s1.toks.set i _) = _; rw [act_toks hact]⟩
  · split at h
    · split at h
      · cases h
      · cases hact : st.act t.storage (if t.exclusive then .dropExclusive else .dropShared) with
        | error f => rw [hact] at h; cases h
        | ok p =>
          obtain ⟨s1, b⟩ := p
          rw [hact] at h
          simp only [bind, Except.bind] at h
          injection h with h
          subst h
          exact ⟨{ t with own := false, live := false }, rfl, by show (s1.toks.set i _) = _; rw [act_toks hact]⟩
    · injection h with h
      subst h
      exact ⟨{ t with live := false }, rfl, rfl⟩

theorem step_kinds {st st' : St} {a : Act} (h : st.step a = some (.ok st')) : SameKinds st.toks st'.toks := by
  cases a with
  | «open» kind s x =>
    simp only [St.step] at h
    split at h
    · cases h
    · injection h with h
      cases hact : st.act 0 .read with
      | error f => rw [hact] at h; cases h
      | ok p =>
        obtain ⟨s1, b⟩ := p
        rw [hact] at h
        simp only [bind, Except.bind] at h
        injection h with h
        subst h
        have := act_toks hact
        cases b
        · simp only [Bool.false_eq_true, if_false, this]; exact .refl _
        · simp only [if_true]
          show SameKinds st.toks (s1.toks ++ [_])
          rw [this]; exact .push _ _
  | openAll x =>
    simp only [St.step] at h
    injection h with h
    cases hact : st.act 0 (if x then .write else .read) with
    | error f => rw [hact] at h; cases h
    | ok p =>
      obtain ⟨s1, b⟩ := p
      rw [hact] at h
      simp only [bind, Except.bind] at h
      injection h with h
      subst h
      have := act_toks hact
      cases b
      · simp only [Bool.false_eq_true, if_false, this]; exact .refl _
      · simp only [if_true]
        show SameKinds st.toks (s1.toks ++ [_])
        rw [this]; exact .push _ _
  | openChild i kind s x =>
    simp only [St.step] at h
    split at h
    · cases h
    · split at h
      · cases h
      · injection h with h
        injection h with h
        subst h
        exact .push _ _
  | take i =>
    simp only [St.step] at h
    split at h
    · cases h
    · rename_i t hi
      split at h
      · cases h
      · injection h with h
        cases hact : st.act t.storage (if t.exclusive then .write else .read) with
        | error f => rw [hact] at h; cases h
        | ok p =>
          obtain ⟨s1, b⟩ := p
          rw [hact] at h
          simp only [bind, Except.bind] at h
          injection h with h
          subst h
          have := act_toks hact
          cases b
          · simp only [Bool.false_eq_true, if_false, this]; exact .refl _
          · simp only [if_true]
            show SameKinds st.toks (s1.toks.set i _)
            rw [this]
            exact .set hi rfl
  | release i =>
    simp only [St.step] at h
    split at h
    · cases h
    · rename_i t hi
      split at h
      · cases h
      · injection h with h
        obtain ⟨u, hu, ht⟩ := releaseStep_toks h
        rw [ht]
        exact .set hi hu
  | drop i =>
    simp only [St.step] at h
    split at h
    · cases h
    · rename_i t hi
      split at h
      · cases h
      · injection h with h
        unfold St.dropSteps at h
        cases h1 : st.releaseStep i t with
        | error f => rw [h1] at h; cases h
        | ok s1 =>
          rw [h1] at h
          simp only [bind, Except.bind] at h
          obtain ⟨u, hu, ht⟩ := releaseStep_toks h1
          have hi1 : s1.toks[i]? = some u := by rw [ht, set_get hi, if_pos rfl]
          rw [hi1] at h
          obtain ⟨u', hu', ht'⟩ := releaseStep_toks h
          have k1 : SameKinds st.toks s1.toks := by rw [ht]; exact .set hi hu
          have k2 : SameKinds s1.toks st'.toks := by rw [ht']; exact .set hi1 hu'
          intro j v hj
          obtain ⟨v1, a, b⟩ := k1 j v hj
          obtain ⟨v2, c, d⟩ := k2 j v1 a
          exact ⟨v2, c, d.trans b⟩
  | destroy i =>
    simp only [St.step] at h
    split at h
    · cases h
    · split at h
      · cases h
      · injection h with h
        injection h with h
        subst h
        exact .refl _
  | copyOut i =>
    simp only [St.step] at h
    split at h
    · cases h
    · split at h
      · cases h
      · injection h with h
        injection h with h
        subst h
        exact .refl _

theorem Inv.new : Inv none St.new :=
  ⟨fun _ => .new, fun _ => rfl, fun _ => rfl, fun s => by show 0 = 0 + if s = 0 then 0 else 0; split <;> rfl,
    (fun _ _ h => by cases h), (fun _ _ h => by cases h), (fun _ _ _ h => by cases h)⟩

theorem Run.inv {as : List Act} {st : St} (hr : Run as st) (hw : Whole as st) : Inv none st := by
  induction hr with
  | new => exact .new
  | step hr hs ha ih =>
    rename_i as st a st'
    have hk := step_kinds ha
    have hi := ih fun i t hi ht => by
      obtain ⟨t', h1, h2⟩ := hk i t ht
      rw [← h2]
      exact hw i t' (List.mem_append_left _ hi) h1
    refine (hi.step hs ha fun i t hai ht => ?_).2 st' rfl
    obtain ⟨t', h1, h2⟩ := hk i t ht
    have := hw i t' (by rw [hai]; simp) h1
    rw [h2] at this
    rcases this with h | h | h <;> rw [h] <;> rfl

theorem two_own {ts : List Token} {i j : Nat} (hij : i ≠ j) {t u : Token} (hi : ts[i]? = some t) (hj : ts[j]? = some u)
    {s : Nat} {x : Bool} (ht : t.own = true ∧ t.storage = s ∧ t.exclusive = x)
    (hu : u.own = true ∧ u.storage = s ∧ u.exclusive = x) : 2 ≤ ownCount ts s x := by
  have h3 := ownCount_set hi { t with own := false } s x
  have h4 : 0 < ownCount (ts.set i { t with own := false }) u.storage u.exclusive :=
    own_pos (i := j) (by rw [set_get hi, if_neg hij.symm]; exact hj) hu.1
  rw [hu.2.1, hu.2.2] at h4
  have e1 : (if t.own && (t.storage == s && t.exclusive == x) then (1 : Int) else 0) = 1 := by
    simp [ht.1, ht.2.1, ht.2.2]
  have e2 : (if ({ t with own := false } : Token).own && (({ t with own := false } : Token).storage == s &&
      ({ t with own := false } : Token).exclusive == x) then (1 : Int) else 0) = 0 := by simp
  rw [e1, e2] at h3
  omega

/-- C69, all threads, all interleavings. Missing, because false (`C69_fails`): destructors of `View`, `ViewMut`,
`Ref`, `RefMut` and iterators of a world that another thread interrupts.

An exclusive borrow of a storage is the only one. While `&mut AllStorages` can be used nobody has a borrow of
anything. No borrow outlives its storage: giving it back never touches freed memory. -/
theorem C69_partial {as : List Act} {st : St} (hr : Run as st) (hw : Whole as st) :
    (∀ i j s, i ≠ j → Holds st i s true → ∀ x, ¬ Holds st j s x) ∧
    (∀ i, Holds st i 0 true → Childless st i → ∀ j s x, j ≠ i → ¬ Holds st j s x) ∧
    ((∀ s, Borrow.Small (st.cell s)) → ∀ a r, st.step a = some r → Whole (as ++ [a]) st → r ≠ .error .oob) := by
  have h := hr.inv hw
  refine ⟨fun i j s hij ⟨t, h1, h2, h3, h4⟩ x ⟨u, k1, k2, k3, k4⟩ => ?_,
    fun i ⟨t, h1, h2, h3, h4⟩ hc j s x hji ⟨u, k1, k2, k3, k4⟩ => ?_, fun hs a r ha hwa => ?_⟩
  · have hm := (h.cell s).mode
    have he := h.excl s
    have hsh := h.shared s
    have hp := own_pos h1 h2
    rw [h3, h4] at hp
    cases x with
    | true =>
      have := two_own hij h1 k1 ⟨h2, h3, h4⟩ ⟨k2, k3, k4⟩
      omega
    | false =>
      have hq := own_pos k1 k2
      rw [k3, k4] at hq
      omega
  · have hno : st.hasChild i = false := by
      unfold St.hasChild
      rw [List.any_eq_false]
      intro v hv hcv
      obtain ⟨k, hk⟩ := List.mem_iff_getElem?.1 hv
      simp only [Bool.and_eq_true, beq_iff_eq] at hcv
      obtain ⟨a, b, c⟩ := hc k v hk hcv.1
      have := hcv.2
      unfold Token.there at this
      rw [a, b, c] at this
      cases this
    have := (h.alone h1 ((h.kind i t h1).1.1 h3) h4 h2 hno k1 hji).1
    rw [k2] at this
    cases this
  · refine (h.step hs ha fun i t hai ht => ?_).1
    rcases hwa i t (by rw [hai]; simp) ht with h | h | h <;> rw [h] <;> rfl

/-- The hypotheses are met: a view of storage 5 and one of the entities (interrupted in its destructor) are held
and dropped, then `AllStoragesViewMut` and a view borrowed from it, which is dropped; the storages are replaced. -/
def demoActs : List Act :=
  [.open .view 5 false, .take 0, .open .entities 1 true, .take 1, .release 1, .drop 0, .release 1, .openAll true,
    .openChild 2 .view 5 true, .take 3, .drop 3, .destroy 2]

/-- Running a list of steps. -/
def runAll : St → List Act → Option St
  | st, [] => some st
  | st, a :: as =>
    match st.step a with
    | some (.ok st') => runAll st' as
    | _ => none

theorem cell_bound {c c' : Cell} {e : Ev} {g : Got} (h : c.step e = some (c', g)) :
    c'.shared ≤ c.shared + 1 ∧ c'.dying ≤ c.dying + 1 := by
  have hrec : ∀ (r : Nat × Got) (add : Cell → Cell) (c' : Cell) (g : Got),
      (∀ d, (add d).shared ≤ d.shared + 1 ∧ (add d).dying = d.dying) →
      c.record r add = (c', g) → c'.shared ≤ c.shared + 1 ∧ c'.dying ≤ c.dying + 1 := by
    intro r add c' g hadd hr
    unfold Cell.record at hr
    dsimp only at hr
    split at hr <;> cases hr
    · have := hadd { c with word := r.1 }
      exact ⟨this.1, by rw [this.2]; exact Nat.le_succ _⟩
    all_goals exact ⟨Nat.le_succ _, by dsimp only; omega⟩
  have a1 : ∀ d : Cell, d.addShared.shared ≤ d.shared + 1 ∧ d.addShared.dying = d.dying :=
    fun d => ⟨Nat.le_refl _, rfl⟩
  have a2 : ∀ d : Cell, d.addReborrowed.shared ≤ d.shared + 1 ∧ d.addReborrowed.dying = d.dying :=
    fun d => ⟨Nat.le_succ _, rfl⟩
  have a3 : ∀ d : Cell, d.addExclusive.shared ≤ d.shared + 1 ∧ d.addExclusive.dying = d.dying :=
    fun d => ⟨Nat.le_succ _, rfl⟩
  cases e <;> simp only [Cell.step] at h
  · injection h with h; exact hrec _ _ _ _ a1 h
  · injection h with h; exact hrec _ _ _ _ a1 h
  · injection h with h; exact hrec _ _ _ _ a3 h
  · split at h
    · cases h
    · injection h with h; exact hrec _ _ _ _ a1 h
  · split at h
    · cases h
    · injection h with h; exact hrec _ _ _ _ a2 h
  · split at h
    · cases h
    · injection h with h; exact hrec _ _ _ _ a2 h
  all_goals
    split at h
    · cases h
    · injection h with h
      injection h with h _
      subst h
      dsimp only
      omega

/-- Few guards on every cell. -/
def Few (st : St) (n : Nat) : Prop := ∀ s, (st.cell s).shared ≤ n ∧ (st.cell s).dying ≤ n

theorem act_few {st st' : St} {n s : Nat} {e : Ev} {b : Bool} (hf : Few st n) (h : st.act s e = .ok (st', b)) :
    Few st' (n + 1) := by
  obtain ⟨c, g, h1, h2, _⟩ := act_ok h
  have := cell_bound h1
  intro k
  rw [h2, setCell_cell]
  have := hf s
  have := hf k
  split <;> omega

theorem releaseStep_few {st st' : St} {n i : Nat} {t : Token} (hf : Few st n) (h : st.releaseStep i t = .ok st') :
    Few st' (n + 1) := by
  unfold St.releaseStep St.giveBackAll St.giveBack at h
  split at h
  · cases hact : st.act 0 .dropShared with
    | error f => rw [hact] at h; cases h
    | ok p =>
      rw [hact] at h
      simp only [bind, Except.bind] at h
      injection h with h
      subst h
      exact (act_few (st' := p.1) (b := p.2) hf hact : Few p.1 (n + 1))
  · split at h
    · split at h
      · cases h
      · cases hact : st.act t.storage (if t.exclusive then .dropExclusive else .dropShared) with
        | error f => rw [hact] at h; cases h
        | ok p =>
          rw [hact] at h
          simp only [bind, Except.bind] at h
          injection h with h
          subst h
          exact (act_few (st' := p.1) (b := p.2) hf hact : Few p.1 (n + 1))
    · injection h with h
      subst h
      exact fun k => ⟨Nat.le_succ_of_le (hf k).1, Nat.le_succ_of_le (hf k).2⟩

theorem step_few {st st' : St} {n : Nat} {a : Act} (hf : Few st n) (h : st.step a = some (.ok st')) : Few st' (n + 2) := by
  have hup : ∀ st : St, Few st (n + 1) → Few st (n + 2) := fun st h k => by have := h k; omega
  have hup2 : ∀ st : St, Few st n → Few st (n + 2) := fun st h k => by have := h k; omega
  cases a with
  | «open» kind s x =>
    simp only [St.step] at h
    split at h
    · cases h
    · injection h with h
      cases hact : st.act 0 .read with
      | error f => rw [hact] at h; cases h
      | ok p =>
        obtain ⟨s1, b⟩ := p
        rw [hact] at h
        simp only [bind, Except.bind] at h
        injection h with h
        subst h
        have := hup _ (act_few hf hact)
        cases b <;> exact this
  | openAll x =>
    simp only [St.step] at h
    injection h with h
    cases hact : st.act 0 (if x then .write else .read) with
    | error f => rw [hact] at h; cases h
    | ok p =>
      obtain ⟨s1, b⟩ := p
      rw [hact] at h
      simp only [bind, Except.bind] at h
      injection h with h
      subst h
      have := hup _ (act_few hf hact)
      cases b <;> exact this
  | openChild i kind s x =>
    simp only [St.step] at h
    split at h
    · cases h
    · split at h
      · cases h
      · injection h with h
        injection h with h
        subst h
        exact hup2 _ hf
  | take i =>
    simp only [St.step] at h
    split at h
    · cases h
    · rename_i t hi
      split at h
      · cases h
      · injection h with h
        cases hact : st.act t.storage (if t.exclusive then .write else .read) with
        | error f => rw [hact] at h; cases h
        | ok p =>
          obtain ⟨s1, b⟩ := p
          rw [hact] at h
          simp only [bind, Except.bind] at h
          injection h with h
          subst h
          have := hup _ (act_few hf hact)
          cases b <;> exact this
  | release i =>
    simp only [St.step] at h
    split at h
    · cases h
    · split at h
      · cases h
      · injection h with h
        exact hup _ (releaseStep_few hf h)
  | drop i =>
    simp only [St.step] at h
    split at h
    · cases h
    · rename_i t hi
      split at h
      · cases h
      · injection h with h
        unfold St.dropSteps at h
        cases h1 : st.releaseStep i t with
        | error f => rw [h1] at h; cases h
        | ok s1 =>
          rw [h1] at h
          simp only [bind, Except.bind] at h
          split at h
          · injection h with h
            subst h
            exact hup _ (releaseStep_few hf h1)
          · exact releaseStep_few (releaseStep_few hf h1) h
  | destroy i =>
    simp only [St.step] at h
    split at h
    · cases h
    · split at h
      · cases h
      · injection h with h
        injection h with h
        subst h
        intro k
        show (if k = 0 then st.cell 0 else Cell.new).shared ≤ _ ∧ _
        have := hf 0
        show (if k = 0 then st.cell 0 else Cell.new).shared ≤ _ ∧ (if k = 0 then st.cell 0 else Cell.new).dying ≤ _
        split
        · omega
        · exact ⟨Nat.zero_le _, Nat.zero_le _⟩
  | copyOut i =>
    simp only [St.step] at h
    split at h
    · cases h
    · split at h
      · cases h
      · injection h with h
        injection h with h
        subst h
        exact hup2 _ hf

theorem run_of {as0 as : List Act} {st st' : St} {n : Nat} (hr : Run as0 st) (hf : Few st n)
    (hn : n + 2 * as.length < 1000) (h : runAll st as = some st') : Run (as0 ++ as) st' := by
  induction as generalizing as0 st n with
  | nil => cases h; rw [List.append_nil]; exact hr
  | cons a as ih =>
    unfold runAll at h
    split at h
    · rename_i st1 ha
      rw [List.length_cons] at hn
      have := ih (hr.step (fun s => by
        have := hf s
        unfold Borrow.Small
        rw [Borrow.high]
        omega) ha) (step_few hf ha) (by omega) h
      rw [List.append_assoc] at this
      exact this
    · cases h

theorem run_new {as : List Act} {st : St} (hn : as.length < 100) (h : runAll St.new as = some st) : Run as st :=
  run_of (as0 := []) (n := 0) .new (fun _ => ⟨Nat.le_refl _, Nat.le_refl _⟩) (by omega) h

theorem demo_runs : ∃ st, runAll St.new demoActs = some st ∧ st.epoch = 1 ∧ Holds st 2 0 true ∧
    st.toks[1]?.map (·.kind) = some .entities :=
  ⟨_, rfl, rfl, ⟨_, rfl, rfl, rfl, rfl⟩, rfl⟩

example : ∃ st, Run demoActs st ∧ Whole demoActs st ∧ Holds st 2 0 true := by
  obtain ⟨st, h1, _, h3, h4⟩ := demo_runs
  refine ⟨st, run_new (by decide) h1, fun i t hi ht => ?_, h3⟩
  have : i = 1 := by
    simp [demoActs] at hi
    exact hi
  subst this
  rw [ht] at h4
  simp only [Option.map_some, Option.some.injEq] at h4
  exact .inl h4

/-- C69 is false of the code: a view gives back its borrow of `AllStorages` before the one of its storage
(`src/views/view.rs:20-22`; `UniqueView` and `EntitiesView` do the opposite). Between the two steps another thread can
take `AllStoragesViewMut`, while the borrow of the storage still exists, swap the storages with those of another
world and drop that one; the second step then writes to freed memory. -/
theorem C69_fails :
    ∃ as st, Run as st ∧ Holds st 0 5 false ∧ Holds st 1 0 true ∧ Childless st 1 ∧
      ∃ st', st.step (.destroy 1) = some (.ok st') ∧ Run (as ++ [.destroy 1]) st' ∧
        st'.step (.release 0) = some (.error .oob) := by
  have h : ∃ st, runAll St.new [.open .view 5 false, .take 0, .release 0, .openAll true] = some st ∧
      Holds st 0 5 false ∧ Holds st 1 0 true ∧ st.toks.all (fun t => t.parent == none) = true ∧
      ∃ st', st.step (.destroy 1) = some (.ok st') ∧ runAll st [.destroy 1] = some st' ∧
        st'.step (.release 0) = some (.error .oob) :=
    ⟨_, rfl, ⟨_, rfl, rfl, rfl, rfl⟩, ⟨_, rfl, rfl, rfl, rfl⟩, rfl, _, rfl, rfl, rfl⟩
  obtain ⟨st, h1, h2, h3, h4, st', h5, h6, h7⟩ := h
  refine ⟨_, st, run_new (by decide) h1, h2, h3, fun j t hj hp => ?_, st', h5, ?_, h7⟩
  · have := List.all_eq_true.1 h4 t (List.mem_of_getElem? hj)
    rw [hp] at this
    cases this
  · refine run_new (as := [.open .view 5 false, .take 0, .release 0, .openAll true, .destroy 1]) (by decide) ?_
    have : ∀ as st bs st', runAll st as = some st' → runAll st (as ++ bs) = runAll st' bs := by
      intro as
      induction as with
      | nil => intro st bs st' h; cases h; rfl
      | cons a as ih =>
        intro st bs st' h
        unfold runAll at h
        simp only [List.cons_append]
        rw [runAll]
        split at h
        · rename_i st1 ha
          exact ih _ _ _ h
        · cases h
    rw [← h6]
    exact this [.open .view 5 false, .take 0, .release 0, .openAll true] _ [.destroy 1] _ h1

/-- C69 is false of `World::get`: what it returns dereferences to a `&'a T` with the lifetime of the
borrow of the world (`src/advanced/get_component.rs:35-42`), which can be copied out. Afterwards nothing guards it:
someone has an exclusive borrow of the storage while the reference can still be used. -/
theorem C69_escape_fails :
    ∃ as st, Run as st ∧ (5, false, 0) ∈ st.loose ∧ Holds st 1 5 true ∧ st.epoch = 0 ∧
      st.toks[0]?.map Token.there = some false := by
  have h : ∃ st, runAll St.new [.open .ref 5 false, .take 0, .copyOut 0, .drop 0, .open .view 5 true, .take 1] = some st ∧
      (5, false, 0) ∈ st.loose ∧ Holds st 1 5 true ∧ st.epoch = 0 ∧ st.toks[0]?.map Token.there = some false :=
    ⟨_, rfl, List.mem_singleton.2 rfl, ⟨_, rfl, rfl, rfl, rfl⟩, rfl, rfl⟩
  obtain ⟨st, h1, h2⟩ := h
  exact ⟨_, st, run_new (by decide) h1, h2⟩

/-- The same with two exclusive references to one component: the `&'a mut T` of a `RefMut` moved out, and the one
of a second `RefMut`. -/
theorem C69_escape_mut_fails :
    ∃ as st, Run as st ∧ (5, true, 0) ∈ st.loose ∧ Holds st 1 5 true ∧ st.epoch = 0 := by
  have h : ∃ st, runAll St.new [.open .ref 5 true, .take 0, .copyOut 0, .drop 0, .open .ref 5 true, .take 1] = some st ∧
      (5, true, 0) ∈ st.loose ∧ Holds st 1 5 true ∧ st.epoch = 0 :=
    ⟨_, rfl, List.mem_singleton.2 rfl, ⟨_, rfl, rfl, rfl, rfl⟩, rfl⟩
  obtain ⟨st, h1, h2⟩ := h
  exact ⟨_, st, run_new (by decide) h1, h2⟩

end Verif.Guards

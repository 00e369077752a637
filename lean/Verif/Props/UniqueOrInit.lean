import Verif.Spec.UniqueOrInit
import Verif.Props.Unique

/-!
# C71: lazily initialised uniques
-/
namespace Verif.UMem
variable {V : Type}

/-- Every step of the model is the step of the specification, for polite steps. -/
theorem drive_rel {w : World V} {s : St V} (h : Rel w s) (z : Lazies) (op : LOp V) (hpol : LPolite z s op) :
    ∃ o z' w' s', drive World.exec z w op = .ok (o, z', w') ∧ drive specCall z s op = .ok (o, z', s') ∧ Rel w' s' := by
  have hold : ∀ p ty ex, ∃ w', w.exec (.hold p ty ex) = .ok ((s.step (.hold p ty ex)).1, w') ∧ Rel w' (s.step (.hold p ty ex)).2 :=
    fun p ty ex => rel_step h (.hold p ty ex) (fun _ _ hh => by cases hh)
  cases op with
  | plain op =>
    simp only [drive, bind, Except.bind, specCall]
    cases hc : clash z op with
    | true => exact ⟨_, _, w, s, rfl, rfl, h⟩
    | false =>
      obtain ⟨w', h1, h2⟩ := rel_step h op hpol
      rw [h1]
      exact ⟨_, _, w', _, rfl, rfl, h2⟩
  | openInit p ty ex =>
    simp only [drive, bind, Except.bind, specCall]
    cases hz : z p with
    | some l => exact ⟨_, _, w, s, rfl, rfl, h⟩
    | none =>
      obtain ⟨w', h1, h2⟩ := hold p ty ex
      rw [h1]
      simp only
      cases ho : (s.step (.hold p ty ex)).1 with
      | done => exact ⟨_, _, w', _, rfl, rfl, h2⟩
      | value v => exact ⟨_, _, w', _, rfl, rfl, h2⟩
      | nonsense => exact ⟨_, _, w', _, rfl, rfl, h2⟩
      | refused e => cases e <;> exact ⟨_, _, w', _, rfl, rfl, h2⟩
  | openDefault p ty ex =>
    simp only [drive, bind, Except.bind, specCall]
    cases hz : z p with
    | some l => exact ⟨_, _, w, s, rfl, rfl, h⟩
    | none =>
      obtain ⟨w', h1, h2⟩ := hold p ty ex
      rw [h1]
      simp only
      cases ho : (s.step (.hold p ty ex)).1 with
      | done =>
        obtain ⟨w2, h3, h4⟩ := rel_step h2 (.drop p) (fun _ _ hh => by cases hh)
        simp only [h3]
        exact ⟨_, _, w2, _, rfl, rfl, h4⟩
      | value v => exact ⟨_, _, w', _, rfl, rfl, h2⟩
      | nonsense => exact ⟨_, _, w', _, rfl, rfl, h2⟩
      | refused e => cases e <;> exact ⟨_, _, w', _, rfl, rfl, h2⟩
  | get p =>
    simp only [drive]
    cases hz : z p with
    | none => exact ⟨_, _, w, s, rfl, rfl, h⟩
    | some l =>
      simp only
      cases hc : l.callable with
      | true => exact ⟨_, _, w, s, rfl, rfl, h⟩
      | false => exact ⟨_, _, w, s, rfl, rfl, h⟩
  | fetch p =>
    simp only [drive, bind, Except.bind, specCall]
    cases hz : z p with
    | none => exact ⟨_, _, w, s, rfl, rfl, h⟩
    | some l =>
      simp only
      cases hc : l.callable with
      | false => exact ⟨_, _, w, s, rfl, rfl, h⟩
      | true =>
        cases hf : l.filled with
        | true => exact ⟨_, _, w, s, rfl, rfl, h⟩
        | false =>
          obtain ⟨w', h1, h2⟩ := hold p l.ty l.excl
          simp only [Bool.true_eq_false, Bool.false_eq_true, if_false, h1]
          cases ho : (s.step (.hold p l.ty l.excl)).1 with
          | done => exact ⟨_, _, w', _, rfl, rfl, h2⟩
          | value v => exact ⟨_, _, w', _, rfl, rfl, h2⟩
          | nonsense => exact ⟨_, _, w', _, rfl, rfl, h2⟩
          | refused e => exact ⟨_, _, w', _, rfl, rfl, h2⟩
  | set p v =>
    simp only [drive, bind, Except.bind, specCall]
    cases hz : z p with
    | none => exact ⟨_, _, w, s, rfl, rfl, h⟩
    | some l =>
      simp only
      cases hc : l.callable with
      | false => exact ⟨_, _, w, s, rfl, rfl, h⟩
      | true =>
        cases hf : l.filled with
        | true => exact ⟨_, _, w, s, rfl, rfl, h⟩
        | false =>
          obtain ⟨w', h1, h2⟩ := rel_step h (.add l.ty v) (fun ty v' hh => by cases hh; exact hpol l hz hf hc)
          simp only [Bool.true_eq_false, Bool.false_eq_true, if_false, h1]
          exact ⟨_, _, w', _, rfl, rfl, h2⟩
  | getOrInit p =>
    simp only [drive, bind, Except.bind, specCall]
    cases hz : z p with
    | none => exact ⟨_, _, w, s, rfl, rfl, h⟩
    | some l =>
      simp only
      cases hc : l.callable with
      | false => exact ⟨_, _, w, s, rfl, rfl, h⟩
      | true =>
        cases hf : l.filled with
        | true => exact ⟨_, _, w, s, rfl, rfl, h⟩
        | false =>
          obtain ⟨w', h1, h2⟩ := hold p l.ty l.excl
          simp only [Bool.true_eq_false, Bool.false_eq_true, if_false, h1]
          cases ho : (s.step (.hold p l.ty l.excl)).1 with
          | done => exact ⟨_, _, w', _, rfl, rfl, h2⟩
          | value v => exact ⟨_, _, w', _, rfl, rfl, h2⟩
          | nonsense => exact ⟨_, _, w', _, rfl, rfl, h2⟩
          | refused e => cases e <;> exact ⟨_, _, w', _, rfl, rfl, h2⟩
  | ret p v =>
    simp only [drive, bind, Except.bind, specCall]
    cases hz : z p with
    | none => exact ⟨_, _, w, s, rfl, rfl, h⟩
    | some l =>
      simp only
      cases hfr : l.frames with
      | nil => exact ⟨_, _, w, s, rfl, rfl, h⟩
      | cons a fr =>
        cases a with
        | added b => exact ⟨_, _, w, s, rfl, rfl, h⟩
        | init =>
          obtain ⟨w', h1, h2⟩ := rel_step h (.add l.ty v) (fun ty v' hh => by cases hh; exact hpol l fr hz hfr)
          simp only [h1]
          exact ⟨_, _, w', _, rfl, rfl, h2⟩
  | cont p =>
    simp only [drive, bind, Except.bind, specCall]
    cases hz : z p with
    | none => exact ⟨_, _, w, s, rfl, rfl, h⟩
    | some l =>
      simp only
      cases hfr : l.frames with
      | nil => exact ⟨_, _, w, s, rfl, rfl, h⟩
      | cons a fr =>
        cases a with
        | init => exact ⟨_, _, w, s, rfl, rfl, h⟩
        | added b =>
          simp only
          cases hf : l.filled with
          | true => exact ⟨_, _, w, s, rfl, rfl, h⟩
          | false =>
            obtain ⟨w', h1, h2⟩ := hold p l.ty l.excl
            simp only [Bool.false_eq_true, if_false, h1]
            cases ho : (s.step (.hold p l.ty l.excl)).1 with
            | done => exact ⟨_, _, w', _, rfl, rfl, h2⟩
            | value v => exact ⟨_, _, w', _, rfl, rfl, h2⟩
            | nonsense => exact ⟨_, _, w', _, rfl, rfl, h2⟩
            | refused e => exact ⟨_, _, w', _, rfl, rfl, h2⟩
  | close p =>
    simp only [drive, bind, Except.bind, specCall]
    cases hz : z p with
    | none => exact ⟨_, _, w, s, rfl, rfl, h⟩
    | some l =>
      simp only
      by_cases hfr : l.frames ≠ []
      · simp only [if_pos hfr]; exact ⟨_, _, w, s, rfl, rfl, h⟩
      · simp only [if_neg hfr]
        cases hf : l.filled with
        | false => exact ⟨_, _, w, s, rfl, rfl, h⟩
        | true =>
          obtain ⟨w', h1, h2⟩ := rel_step h (.drop p) (fun ty v' hh => by cases hh)
          simp only [if_true, h1]
          exact ⟨_, _, w', _, rfl, rfl, h2⟩

theorem driveAll_rel {w : World V} {s : St V} (h : Rel w s) (z : Lazies) (ops : List (LOp V)) (hpol : LPoliteAll z s ops) :
    ∃ os z' w' s', driveAll World.exec z w ops = .ok (os, z', w') ∧ driveAll specCall z s ops = .ok (os, z', s') ∧ Rel w' s' := by
  induction ops generalizing w s z with
  | nil => exact ⟨[], z, w, s, rfl, rfl, h⟩
  | cons op ops ih =>
    obtain ⟨o, z1, w1, s1, h1, h2, h3⟩ := drive_rel h z op hpol.1
    obtain ⟨os, z2, w2, s2, h4, h5, h6⟩ := ih h3 z1 (hpol.2 _ _ _ h2)
    refine ⟨o :: os, z2, w2, s2, ?_, ?_, h6⟩
    · simp only [driveAll, bind, Except.bind, h1, h4]
    · simp only [driveAll, bind, Except.bind, h2, h5]

/-- C71, in part: any program of any number of threads, with lazy views among its calls and with every call cut at its
steps, in which no value is added to a type of which a view is held, gets from every step what the specification says
and never touches freed memory. What is missing is an initialisation that ends while somebody else's has given them a
view, see `C71_race_fails`. -/
theorem C71_partial (ops : List (LOp V)) (hpol : LPoliteAll (fun _ => none) St.init ops) :
    ∃ os z w s, runLazy ops = .ok (os, z, w) ∧ specLazy ops = .ok (os, z, s) := by
  obtain ⟨os, z, w, s, h1, h2, -⟩ := driveAll_rel rel_init (fun _ => none) ops hpol
  exact ⟨os, z, w, s, h1, h2⟩

/-! ## States of polite programs -/

theorem find_append_other (s : St V) {p q ty : Nat} (ex : Bool) (h : p ≠ q) :
    (s.take p ty ex).find q = s.find q := by
  unfold St.take St.find
  simp only
  rw [List.find?_append]
  have : List.find? (fun h : Nat × Nat × Bool => h.1 == q) [(p, ty, ex)] = none := by
    rw [List.find?_eq_none]
    intro x hx
    rw [List.mem_singleton] at hx
    subst hx
    simpa using h
  rw [this, Option.or_none]

theorem find_append_same (s : St V) {p ty : Nat} (ex : Bool) (h : s.find p = none) :
    (s.take p ty ex).find p = some (ty, ex) := by
  unfold St.find at h
  rw [Option.map_eq_none_iff] at h
  unfold St.take St.find
  simp only
  rw [List.find?_append, h]
  simp

theorem find_erase_other (l : List (Nat × Nat × Bool)) {p q : Nat} (h : p ≠ q) :
    (l.eraseP (fun h => h.1 == p)).find? (fun h => h.1 == q) = l.find? (fun h => h.1 == q) := by
  induction l with
  | nil => rfl
  | cons x l ih =>
    by_cases hx : x.1 = p
    · rw [List.eraseP_cons_of_pos (by simpa using hx), List.find?_cons_of_neg]
      simp only [beq_iff_eq, hx]
      exact h
    · rw [List.eraseP_cons_of_neg (by simpa using hx), List.find?_cons, List.find?_cons, ih]

theorem hold_eq (s : St V) {p ty : Nat} {ex : Bool} (h : s.find p = none) :
    s.step (.hold p ty ex) = if s.val ty = none then (.refused .missing, s)
      else if s.free ty ex then (.done, s.take p ty ex) else (.refused .borrowed, s) := by
  simp only [St.step, St.hold, h, Option.isSome_none, Bool.false_eq_true, if_false, Option.isNone_iff_eq_none]
  by_cases hv : s.val ty = none
  · rw [if_pos hv, if_pos hv]
  · rw [if_neg hv, if_neg hv]
    by_cases hb : (if ex = true then s.inUse ty else s.locked ty) = true
    · rw [if_pos hb, if_neg (by unfold St.free; rw [hb]; simp)]
    · rw [if_neg hb, if_pos (by rw [Bool.not_eq_true] at hb; unfold St.free; rw [hb]; rfl)]
      rfl

/-- The name an operation works on. -/
def Op.name : Op V → Option Nat
  | .hold p _ _ | .holdOrDefault p _ _ _ | .drop p => some p
  | _ => none

theorem find_hold_other (s : St V) {p q ty : Nat} (ex : Bool) (h : p ≠ q) : (s.hold p ty ex).2.find q = s.find q := by
  unfold St.hold
  split
  · rfl
  · split
    · rfl
    · by_cases hb : (if ex = true then s.inUse ty else s.locked ty) = true
      · rw [if_pos hb]
      · rw [if_neg hb]; exact find_append_other s ex h

/-- Calls on other names leave a held view alone. -/
theorem find_step (s : St V) (op : Op V) (q : Nat) (h : op.name ≠ some q) : (s.step op).2.find q = s.find q := by
  cases op with
  | add ty v => rfl
  | addKeep ty v => rfl
  | remove ty =>
    simp only [St.step]
    split
    · rfl
    · split <;> rfl
  | hold p ty ex => exact find_hold_other s ex (fun e => h (by rw [e]; rfl))
  | holdOrDefault p ty ex v =>
    simp only [St.step]
    split
    · rfl
    · exact find_hold_other { s with val := UMem.set s.val ty (some ((s.val ty).getD v)) } ex (fun e => h (by rw [e]; rfl))
  | read p =>
    simp only [St.step]
    split
    · rfl
    · split <;> rfl
  | write p v =>
    simp only [St.step]
    split <;> rfl
  | drop p =>
    simp only [St.step]
    split
    · unfold St.find
      simp only
      rw [find_erase_other _ (fun e => h (by rw [e]; rfl))]
    · rfl

/-- The lazy views that hold a view hold the view that is in the cell. -/
def LInv (z : Lazies) (s : St V) : Prop :=
  ∀ p l, z p = some l → s.find p = if l.filled then some (l.ty, l.excl) else none

theorem LInv.set_none {z : Lazies} {s s' : St V} (h : LInv z s) {p : Nat} (hs : ∀ q, q ≠ p → s'.find q = s.find q) :
    LInv (UMem.set z p none) s' := by
  intro q l hq
  by_cases e : q = p
  · rw [e, set_same] at hq; cases hq
  · rw [set_other _ _ e] at hq
    rw [hs q e]; exact h q l hq

theorem LInv.set_some {z : Lazies} {s s' : St V} (h : LInv z s) {p : Nat} {l : Lazy} (hs : ∀ q, q ≠ p → s'.find q = s.find q)
    (hl : s'.find p = if l.filled then some (l.ty, l.excl) else none) :
    LInv (UMem.set z p (some l)) s' := by
  intro q l' hq
  by_cases e : q = p
  · subst e
    rw [set_same] at hq; injection hq with hq; subst hq; exact hl
  · rw [set_other _ _ e] at hq
    rw [hs q e]; exact h q l' hq

theorem hold_find {s : St V} {p ty : Nat} {ex : Bool} (h : (s.step (.hold p ty ex)).1 = .done) :
    s.find p = none ∧ (s.step (.hold p ty ex)).2 = s.take p ty ex := by
  simp only [St.step, St.hold] at h ⊢
  cases hf : s.find p with
  | some x => rw [hf] at h; simp at h
  | none =>
    rw [hf] at h
    simp only [Option.isSome_none, Bool.false_eq_true, if_false] at h ⊢
    refine ⟨trivial, ?_⟩
    split at h
    · simp at h
    · rename_i h1
      by_cases hb : (if ex = true then s.inUse ty else s.locked ty) = true
      · rw [if_pos hb] at h; simp at h
      · rw [if_neg h1, if_neg hb]; rfl

theorem hold_not {s : St V} {p ty : Nat} {ex : Bool} (h : (s.step (.hold p ty ex)).1 ≠ .done) :
    (s.step (.hold p ty ex)).2 = s := by
  simp only [St.step, St.hold] at h ⊢
  split
  · rfl
  · rename_i h1
    rw [if_neg h1] at h
    split
    · rfl
    · rename_i h2
      rw [if_neg h2] at h
      by_cases hb : (if ex = true then s.inUse ty else s.locked ty) = true
      · rw [if_pos hb]
      · rw [if_neg hb] at h
        exact absurd rfl h

theorem hold_missing {s : St V} {p ty : Nat} {ex : Bool} (h : (s.step (.hold p ty ex)).1 = .refused .missing) :
    s.find p = none := by
  simp only [St.step, St.hold] at h
  cases hf : s.find p with
  | none => rfl
  | some x => rw [hf] at h; simp at h

theorem drop_take (s : St V) {p ty : Nat} (ex : Bool) (h : s.find p = none) :
    (s.take p ty ex).step (.drop p) = (.done, s) := by
  have h1 := find_append_same s (ty := ty) ex h
  unfold St.find at h
  rw [Option.map_eq_none_iff] at h
  simp only [St.step, h1]
  unfold St.take
  simp only
  rw [List.eraseP_append_right _ (fun b hb => by simpa using List.find?_eq_none.1 h b hb)]
  simp

theorem linv_drive {z z' : Lazies} {s s' : St V} {op : LOp V} {o : LOut V} (h : LInv z s)
    (hd : drive specCall z s op = .ok (o, z', s')) : LInv z' s' := by
  have holding : ∀ p ty ex o s1, s.step (.hold p ty ex) = (o, s1) →
      (o = .done → s.find p = none ∧ s1 = s.take p ty ex) ∧ (o ≠ .done → s1 = s) := by
    intro p ty ex o s1 e
    refine ⟨fun ho => ?_, fun ho => ?_⟩
    · have := hold_find (s := s) (p := p) (ty := ty) (ex := ex) (by rw [e]; exact ho)
      rw [e] at this; exact this
    · have := hold_not (s := s) (p := p) (ty := ty) (ex := ex) (by rw [e]; exact ho)
      rw [e] at this; exact this
  cases op with
  | plain op =>
    simp only [drive, bind, Except.bind, specCall] at hd
    cases hc : clash z op with
    | true => rw [hc] at hd; cases hd; exact h
    | false =>
      rw [hc] at hd
      cases hd
      intro p l hp
      rw [find_step s op p ?_]
      · exact h p l hp
      · intro e
        cases op with
        | hold q ty ex => injection e with e; subst e; simp [clash, hp] at hc
        | holdOrDefault q ty ex v => injection e with e; subst e; simp [clash, hp] at hc
        | drop q => injection e with e; subst e; simp [clash, hp] at hc
        | add => cases e
        | addKeep => cases e
        | remove => cases e
        | read => cases e
        | write => cases e
  | openInit p ty ex =>
    simp only [drive, bind, Except.bind, specCall] at hd
    cases hz : z p with
    | some l => rw [hz] at hd; cases hd; exact h
    | none =>
      rw [hz] at hd
      simp only at hd
      cases ho : s.step (.hold p ty ex) with
      | mk o1 s1 =>
        rw [ho] at hd
        cases o1 with
        | done =>
          cases hd
          obtain ⟨hn, e⟩ := (holding _ _ _ _ _ ho).1 rfl
          subst e
          exact h.set_some (fun q hq => find_append_other s ex (Ne.symm hq)) (find_append_same s ex hn)
        | value v => cases hd; rw [(holding _ _ _ _ _ ho).2 (fun hh => by cases hh)]; exact h
        | nonsense => cases hd; rw [(holding _ _ _ _ _ ho).2 (fun hh => by cases hh)]; exact h
        | refused e =>
          have e1 := (holding _ _ _ _ _ ho).2 (fun hh => by cases hh)
          subst e1
          cases e with
          | missing =>
            cases hd
            exact h.set_some (fun q hq => rfl) (hold_missing (by rw [ho]))
          | borrowed => cases hd; exact h
  | openDefault p ty ex =>
    simp only [drive, bind, Except.bind, specCall] at hd
    cases hz : z p with
    | some l => rw [hz] at hd; cases hd; exact h
    | none =>
      rw [hz] at hd
      simp only at hd
      cases ho : s.step (.hold p ty ex) with
      | mk o1 s1 =>
        rw [ho] at hd
        cases o1 with
        | done =>
          cases hd
          obtain ⟨hn, e⟩ := (holding _ _ _ _ _ ho).1 rfl
          subst e
          rw [drop_take s ex hn]
          exact h.set_some (fun q hq => rfl) hn
        | value v => cases hd; rw [(holding _ _ _ _ _ ho).2 (fun hh => by cases hh)]; exact h
        | nonsense => cases hd; rw [(holding _ _ _ _ _ ho).2 (fun hh => by cases hh)]; exact h
        | refused e =>
          have e1 := (holding _ _ _ _ _ ho).2 (fun hh => by cases hh)
          subst e1
          cases e with
          | missing =>
            cases hd
            exact h.set_some (fun q hq => rfl) (hold_missing (by rw [ho]))
          | borrowed => cases hd; exact h
  | get p =>
    simp only [drive] at hd
    cases hz : z p with
    | none => rw [hz] at hd; cases hd; exact h
    | some l =>
      rw [hz] at hd
      simp only at hd
      cases hc : l.callable with
      | true => rw [hc] at hd; cases hd; exact h
      | false => rw [hc] at hd; cases hd; exact h
  | fetch p =>
    simp only [drive, bind, Except.bind, specCall] at hd
    cases hz : z p with
    | none => rw [hz] at hd; cases hd; exact h
    | some l =>
      rw [hz] at hd
      simp only at hd
      cases hc : l.callable with
      | false => rw [hc] at hd; cases hd; exact h
      | true =>
        cases hf : l.filled with
        | true => rw [hc, hf] at hd; cases hd; exact h
        | false =>
          rw [hc, hf] at hd
          simp only [Bool.true_eq_false, Bool.false_eq_true, if_false] at hd
          cases ho : s.step (.hold p l.ty l.excl) with
          | mk o1 s1 =>
            rw [ho] at hd
            cases o1 with
            | done =>
              cases hd
              obtain ⟨hn, e⟩ := (holding _ _ _ _ _ ho).1 rfl
              subst e
              exact h.set_some (fun q hq => find_append_other s _ (Ne.symm hq)) (find_append_same s _ hn)
            | value v => cases hd; rw [(holding _ _ _ _ _ ho).2 (fun hh => by cases hh)]; exact h
            | nonsense => cases hd; rw [(holding _ _ _ _ _ ho).2 (fun hh => by cases hh)]; exact h
            | refused e => cases hd; rw [(holding _ _ _ _ _ ho).2 (fun hh => by cases hh)]; exact h
  | set p v =>
    simp only [drive, bind, Except.bind, specCall] at hd
    cases hz : z p with
    | none => rw [hz] at hd; cases hd; exact h
    | some l =>
      rw [hz] at hd
      simp only at hd
      cases hc : l.callable with
      | false => rw [hc] at hd; cases hd; exact h
      | true =>
        cases hf : l.filled with
        | true => rw [hc, hf] at hd; cases hd; exact h
        | false =>
          rw [hc, hf] at hd
          cases hd
          exact h.set_some (fun q hq => rfl) (by have := h p l hz; rw [hf] at this; exact this)
  | getOrInit p =>
    simp only [drive, bind, Except.bind, specCall] at hd
    cases hz : z p with
    | none => rw [hz] at hd; cases hd; exact h
    | some l =>
      rw [hz] at hd
      simp only at hd
      cases hc : l.callable with
      | false => rw [hc] at hd; cases hd; exact h
      | true =>
        cases hf : l.filled with
        | true => rw [hc, hf] at hd; cases hd; exact h
        | false =>
          rw [hc, hf] at hd
          simp only [Bool.true_eq_false, Bool.false_eq_true, if_false] at hd
          cases ho : s.step (.hold p l.ty l.excl) with
          | mk o1 s1 =>
            rw [ho] at hd
            cases o1 with
            | done =>
              cases hd
              obtain ⟨hn, e⟩ := (holding _ _ _ _ _ ho).1 rfl
              subst e
              exact h.set_some (fun q hq => find_append_other s _ (Ne.symm hq)) (find_append_same s _ hn)
            | value v => cases hd; rw [(holding _ _ _ _ _ ho).2 (fun hh => by cases hh)]; exact h
            | nonsense => cases hd; rw [(holding _ _ _ _ _ ho).2 (fun hh => by cases hh)]; exact h
            | refused e =>
              have e1 := (holding _ _ _ _ _ ho).2 (fun hh => by cases hh)
              subst e1
              cases e with
              | missing =>
                cases hd
                exact h.set_some (fun q hq => rfl) (by have := h p l hz; rw [hf] at this; exact this)
              | borrowed => cases hd; exact h
  | ret p v =>
    simp only [drive, bind, Except.bind, specCall] at hd
    cases hz : z p with
    | none => rw [hz] at hd; cases hd; exact h
    | some l =>
      rw [hz] at hd
      simp only at hd
      cases hfr : l.frames with
      | nil => rw [hfr] at hd; cases hd; exact h
      | cons a fr =>
        rw [hfr] at hd
        cases a with
        | added b => cases hd; exact h
        | init => cases hd; exact h.set_some (fun q hq => rfl) (h p l hz)
  | cont p =>
    simp only [drive, bind, Except.bind, specCall] at hd
    cases hz : z p with
    | none => rw [hz] at hd; cases hd; exact h
    | some l =>
      rw [hz] at hd
      simp only at hd
      cases hfr : l.frames with
      | nil => rw [hfr] at hd; cases hd; exact h
      | cons a fr =>
        rw [hfr] at hd
        cases a with
        | init => cases hd; exact h
        | added b =>
          simp only at hd
          cases hf : l.filled with
          | true =>
            rw [hf] at hd; cases hd
            exact h.set_some (fun q hq => rfl) (by have := h p l hz; rw [hf] at this; exact this)
          | false =>
            rw [hf] at hd
            simp only [Bool.false_eq_true, if_false] at hd
            have hn : s.find p = none := by have := h p l hz; rw [hf] at this; exact this
            have keep : LInv (UMem.set z p (if l.dflt then none else some { l with filled := false, frames := fr })) s := by
              cases hdf : l.dflt with
              | true => exact h.set_none (fun q hq => rfl)
              | false => exact h.set_some (fun q hq => rfl) hn
            cases ho : s.step (.hold p l.ty l.excl) with
            | mk o1 s1 =>
              rw [ho] at hd
              cases o1 with
              | done =>
                cases hd
                obtain ⟨hn, e⟩ := (holding _ _ _ _ _ ho).1 rfl
                subst e
                exact h.set_some (fun q hq => find_append_other s _ (Ne.symm hq)) (find_append_same s _ hn)
              | value v => cases hd; rw [(holding _ _ _ _ _ ho).2 (fun hh => by cases hh)]; exact keep
              | nonsense => cases hd; rw [(holding _ _ _ _ _ ho).2 (fun hh => by cases hh)]; exact keep
              | refused e => cases hd; rw [(holding _ _ _ _ _ ho).2 (fun hh => by cases hh)]; exact keep
  | close p =>
    simp only [drive, bind, Except.bind, specCall] at hd
    cases hz : z p with
    | none => rw [hz] at hd; cases hd; exact h
    | some l =>
      rw [hz] at hd
      simp only at hd
      by_cases hfr : l.frames ≠ []
      · rw [if_pos hfr] at hd; cases hd; exact h
      · rw [if_neg hfr] at hd
        cases hf : l.filled with
        | false => rw [hf] at hd; cases hd; exact h.set_none (fun q hq => rfl)
        | true =>
          rw [hf] at hd; cases hd
          exact h.set_none (fun q hq => find_step s (.drop p) q (fun e => hq (by injection e with e; exact e.symm)))

theorem linv_all {z z' : Lazies} {s s' : St V} {ops : List (LOp V)} {os : List (LOut V)} (h : LInv z s)
    (hd : driveAll specCall z s ops = .ok (os, z', s')) : LInv z' s' := by
  induction ops generalizing z s os with
  | nil => cases hd; exact h
  | cons op ops ih =>
    simp only [driveAll, bind, Except.bind] at hd
    cases h1 : drive specCall z s op with
    | error e => rw [h1] at hd; cases hd
    | ok x =>
      obtain ⟨o, z1, s1⟩ := x
      rw [h1] at hd
      simp only at hd
      cases h2 : driveAll specCall z1 s1 ops with
      | error e => rw [h2] at hd; cases hd
      | ok y =>
        obtain ⟨os1, z2, s2⟩ := y
        rw [h2] at hd
        cases hd
        exact ih (linv_drive h h1) h2

section
variable {σ : Type} (f : σ → Op V → Res (Out V × σ))
theorem driveAll_append {z z1 : Lazies} {s s1 : σ} {ops : List (LOp V)} {os : List (LOut V)}
    (h : driveAll f z s ops = .ok (os, z1, s1)) (more : List (LOp V)) {os2 : List (LOut V)} {z2 : Lazies} {s2 : σ}
    (h2 : driveAll f z1 s1 more = .ok (os2, z2, s2)) : driveAll f z s (ops ++ more) = .ok (os ++ os2, z2, s2) := by
  induction ops generalizing z s os with
  | nil => cases h; exact h2
  | cons op ops ih =>
    simp only [List.cons_append, driveAll, bind, Except.bind] at h ⊢
    cases h3 : drive f z s op with
    | error e => rw [h3] at h; cases h
    | ok x =>
      obtain ⟨o, z1, s1⟩ := x
      rw [h3] at h
      simp only at h ⊢
      cases h4 : driveAll f z1 s1 ops with
      | error e => rw [h4] at h; cases h
      | ok y =>
        obtain ⟨os1, z2, s2⟩ := y
        rw [h4] at h
        cases h
        rw [ih h4]
        rfl
end

theorem polite_append {z z1 : Lazies} {s s1 : St V} {ops : List (LOp V)} {os : List (LOut V)}
    (hp : LPoliteAll z s ops) (h : driveAll specCall z s ops = .ok (os, z1, s1)) (more : List (LOp V))
    (h2 : LPoliteAll z1 s1 more) : LPoliteAll z s (ops ++ more) := by
  induction ops generalizing z s os with
  | nil => cases h; exact h2
  | cons op ops ih =>
    refine ⟨hp.1, fun o z' s' hd => ?_⟩
    simp only [driveAll, bind, Except.bind, hd] at h
    cases h4 : driveAll specCall z' s' ops with
    | error e => rw [h4] at h; cases h
    | ok y =>
      obtain ⟨os1, z2, s2⟩ := y
      rw [h4] at h
      cases h
      exact ih (hp.2 _ _ _ hd) h4

theorem Reached.inv {ops : List (LOp V)} {os z} {s : St V} (h : Reached ops os z s) : LInv z s :=
  linv_all (fun p l hp => by cases hp) h.2

theorem Reached.rel {ops : List (LOp V)} {os z} {s : St V} (h : Reached ops os z s) :
    ∃ w, runLazy ops = .ok (os, z, w) ∧ Rel w s := by
  obtain ⟨os1, z1, w1, s1, h1, h2, h3⟩ := driveAll_rel rel_init (fun _ => none) ops h.1
  have := h.2
  unfold specLazy at this
  rw [h2] at this
  cases this
  exact ⟨w1, h1, h3⟩

/-- A unique of which a view is held exists. -/
theorem Reached.unused {ops : List (LOp V)} {os z} {s : St V} (h : Reached ops os z s) {ty : Nat} (hn : s.val ty = none) :
    s.inUse ty = false := by
  obtain ⟨w, -, hrel⟩ := h.rel
  refine unused_of_none hrel ?_
  cases hs : w.mem.storages ty with
  | none => rfl
  | some a =>
    obtain ⟨v, hv, -⟩ := hrel.box ty a hs
    rw [hn] at hv; cases hv

theorem Reached.more {ops : List (LOp V)} {os z} {s : St V} (h : Reached ops os z s) {more : List (LOp V)} {os' z'} {s' : St V}
    (hp : LPoliteAll z s more) (hd : driveAll specCall z s more = .ok (os', z', s')) : Then ops os more os' z' s' := by
  have hr : Reached (ops ++ more) (os ++ os') z' s' :=
    ⟨polite_append h.1 h.2 more hp, driveAll_append specCall h.2 more hd⟩
  obtain ⟨w, hw, -⟩ := hr.rel
  exact ⟨hr, w, hw⟩

theorem free_of_unused {s : St V} {ty : Nat} (h : s.inUse ty = false) (ex : Bool) : s.free ty ex = true := by
  have := (not_inUse h).2
  unfold St.free
  cases ex with
  | true => rw [if_pos rfl, h]; rfl
  | false => rw [if_neg (by simp), this]; rfl

/-- One step that adds nothing. -/
theorem polite_one {z : Lazies} {s : St V} {op : LOp V} (h : LPolite z s op) : LPoliteAll z s [op] :=
  ⟨h, fun _ _ _ _ => trivial⟩

theorem driveAll_one {σ : Type} (f : σ → Op V → Res (Out V × σ)) {z z' : Lazies} {s s' : σ} {op : LOp V} {o : LOut V}
    (h : drive f z s op = .ok (o, z', s')) : driveAll f z s [op] = .ok ([o], z', s') := by
  simp only [driveAll, bind, Except.bind, h]

theorem Reached.one {ops : List (LOp V)} {os z} {s : St V} (h : Reached ops os z s) {op : LOp V} {o z'} {s' : St V}
    (hp : LPolite z s op) (hd : drive specCall z s op = .ok (o, z', s')) : Then ops os [op] [o] z' s' :=
  h.more (polite_one hp) (driveAll_one specCall hd)

theorem Then.one {ops more : List (LOp V)} {os outs z} {s : St V} (h : Then ops os more outs z s) {op : LOp V} {o z'} {s' : St V}
    (hp : LPolite z s op) (hd : drive specCall z s op = .ok (o, z', s')) :
    Then ops os (more ++ [op]) (outs ++ [o]) z' s' := by
  have := h.1.one hp hd
  unfold Then at this ⊢
  rw [List.append_assoc, List.append_assoc] at this
  exact this

/-! ## C71 -/

/-- Opening a lazy view: if there is no such unique, it is empty; if there is one it holds a view of it, unless other
views exclude that. -/
theorem C71_open {ops : List (LOp V)} {os z} {s : St V} (h : Reached ops os z s) (p ty : Nat) (ex : Bool) (hz : z p = none)
    (hf : s.find p = none) :
    (s.val ty = none → Then ops os [.openInit p ty ex] [.out .done] (UMem.set z p (some ⟨ty, ex, false, [], false⟩)) s) ∧
    (s.val ty ≠ none → s.free ty ex = true →
      Then ops os [.openInit p ty ex] [.out .done] (UMem.set z p (some ⟨ty, ex, true, [], false⟩)) (s.take p ty ex)) ∧
    (s.val ty ≠ none → s.free ty ex = false → Then ops os [.openInit p ty ex] [.out (.refused .borrowed)] z s) := by
  have key := hold_eq s (ty := ty) (ex := ex) hf
  refine ⟨fun hv => h.one trivial ?_, fun hv hfr => h.one trivial ?_, fun hv hfr => h.one trivial ?_⟩
  · rw [if_pos hv] at key
    simp only [drive, bind, Except.bind, specCall, hz, key]
  · rw [if_neg hv, if_pos hfr] at key
    simp only [drive, bind, Except.bind, specCall, hz, key]
  · rw [if_neg hv, if_neg (by rw [hfr]; simp)] at key
    simp only [drive, bind, Except.bind, specCall, hz, key]

/-- `get_or_init` when there is no such unique: the closure is called; if it returns `v` without the unique having been
added meanwhile, the unique is `v` from then on and the view is held. It is not called otherwise. -/
theorem C71_get_or_init_new {ops : List (LOp V)} {os z} {s : St V} (h : Reached ops os z s) {p : Nat} {l : Lazy}
    (hz : z p = some l) (hc : l.frames = []) (hf : l.filled = false) (hv : s.val l.ty = none) (v : V) :
    Then ops os [.getOrInit p, .ret p v, .cont p, .plain (.read p)] [.calls, .goesOn, .out .done, .out (.value v)]
      (UMem.set z p (some { l with filled := true, dflt := false })) ((s.put l.ty v).take p l.ty l.excl) := by
  have hn : s.find p = none := by have := h.inv p l hz; rw [hf] at this; exact this
  have hu := h.unused hv
  have hcall : l.callable = true := by unfold Lazy.callable; rw [hc]
  have key := hold_eq s (ty := l.ty) (ex := l.excl) hn
  rw [if_pos hv] at key
  have t1 : Then ops os [.getOrInit p] [.calls] (UMem.set z p (some { l with frames := [.init] })) s := by
    refine h.one trivial ?_
    simp only [drive, bind, Except.bind, specCall, hz, hcall, hf, Bool.true_eq_false, Bool.false_eq_true, if_false, key, hc]
  have t2 := t1.one (op := .ret p v) (o := .goesOn) (z' := UMem.set z p (some { l with frames := [.added false] }))
    (s' := s.put l.ty v) (fun l' fr h1 _ => by
      rw [set_same] at h1; injection h1 with h1; subst h1; exact hu) (by
      simp only [drive, bind, Except.bind, specCall, set_same, St.step, St.put]
      congr 3
      funext q
      by_cases e : q = p
      · rw [e, set_same, set_same]
      · rw [set_other _ _ e, set_other _ _ e, set_other _ _ e])
  have hn2 : (s.put l.ty v).find p = none := hn
  have key2 := hold_eq (s.put l.ty v) (ty := l.ty) (ex := l.excl) hn2
  rw [if_neg (by simp [St.put, set_same]), if_pos (free_of_unused (s := s.put l.ty v) hu l.excl)] at key2
  have t3 := t2.one (op := .cont p) (o := .out .done) (z' := UMem.set z p (some { l with filled := true, dflt := false }))
    (s' := (s.put l.ty v).take p l.ty l.excl) trivial (by
      simp only [drive, bind, Except.bind, specCall, set_same, hf, Bool.false_eq_true, if_false, key2, hc]
      congr 3
      funext q
      by_cases e : q = p
      · rw [e, set_same, set_same]
      · rw [set_other _ _ e, set_other _ _ e, set_other _ _ e])
  refine t3.one (op := .plain (.read p)) (fun _ _ hh => by cases hh) ?_
  simp only [drive, bind, Except.bind, specCall, clash, Bool.false_eq_true, if_false, St.step,
    find_append_same _ l.excl hn2]
  simp only [St.take, St.put, set_same]

/-- `get_or_init` when the unique exists: the closure is not called, and the view is had unless other views exclude it;
the unique stays as it is. -/
theorem C71_get_or_init_there {ops : List (LOp V)} {os z} {s : St V} (h : Reached ops os z s) {p : Nat} {l : Lazy}
    (hz : z p = some l) (hc : l.callable = true) (hf : l.filled = false) {x : V} (hv : s.val l.ty = some x) :
    (s.free l.ty l.excl = true → Then ops os [.getOrInit p, .plain (.read p)] [.out .done, .out (.value x)]
      (UMem.set z p (some { l with filled := true })) (s.take p l.ty l.excl)) ∧
    (s.free l.ty l.excl = false → Then ops os [.getOrInit p] [.out (.refused .borrowed)] z s) := by
  have hn : s.find p = none := by have := h.inv p l hz; rw [hf] at this; exact this
  have key := hold_eq s (ty := l.ty) (ex := l.excl) hn
  rw [if_neg (by rw [hv]; simp)] at key
  refine ⟨fun hfr => ?_, fun hfr => ?_⟩
  · rw [if_pos hfr] at key
    have t1 : Then ops os [.getOrInit p] [.out .done] (UMem.set z p (some { l with filled := true })) (s.take p l.ty l.excl) := by
      refine h.one trivial ?_
      simp only [drive, bind, Except.bind, specCall, hz, hc, hf, Bool.true_eq_false, Bool.false_eq_true, if_false, key]
    refine t1.one (op := .plain (.read p)) (fun _ _ hh => by cases hh) ?_
    simp only [drive, bind, Except.bind, specCall, clash, Bool.false_eq_true, if_false, St.step,
      find_append_same _ l.excl hn]
    simp only [St.take, hv]
  · rw [if_neg (by rw [hfr]; simp)] at key
    refine h.one trivial ?_
    simp only [drive, bind, Except.bind, specCall, hz, hc, hf, Bool.true_eq_false, Bool.false_eq_true, if_false, key]

/-- `get_or_init`, `get`, `set` and `fetch` on a view that holds the unique: nothing is called, added or borrowed. -/
theorem C71_filled {ops : List (LOp V)} {os z} {s : St V} (h : Reached ops os z s) {p : Nat} {l : Lazy}
    (hz : z p = some l) (hc : l.callable = true) (hf : l.filled = true) (v : V) :
    ∃ x, s.val l.ty = some x ∧
    Then ops os [.getOrInit p, .get p, .set p v, .fetch p, .plain (.read p)]
      [.out .done, .bool true, .bool false, .bool false, .out (.value x)] z s := by
  have hn : s.find p = some (l.ty, l.excl) := by have := h.inv p l hz; rw [hf] at this; exact this
  obtain ⟨x, hx⟩ : ∃ x, s.val l.ty = some x := by
    cases hv : s.val l.ty with
    | some x => exact ⟨x, rfl⟩
    | none =>
      have hu := h.unused hv
      obtain ⟨q, hq, -⟩ := find_mem hn
      unfold St.inUse at hu
      rw [List.any_eq_false] at hu
      exact absurd (beq_self_eq_true _) (hu _ hq)
  refine ⟨x, hx, ?_⟩
  have t1 : Then ops os [.getOrInit p] [.out .done] z s := by
    refine h.one trivial ?_
    simp only [drive, hz, hc, hf, Bool.true_eq_false, if_false, if_true]
  have t2 := t1.one (op := .get p) (o := .bool true) (z' := z) (s' := s) trivial (by
    simp only [drive, hz, hc, hf, if_true])
  have t3 := t2.one (op := .set p v) (o := .bool false) (z' := z) (s' := s)
    (fun l' h1 h2 _ => by rw [hz] at h1; injection h1 with h1; subst h1; rw [hf] at h2; cases h2) (by
    simp only [drive, hz, hc, hf, Bool.true_eq_false, if_false, if_true])
  have t4 := t3.one (op := .fetch p) (o := .bool false) (z' := z) (s' := s) trivial (by
    simp only [drive, hz, hc, hf, Bool.true_eq_false, if_false, if_true])
  refine t4.one (op := .plain (.read p)) (fun _ _ hh => by cases hh) ?_
  simp only [drive, bind, Except.bind, specCall, clash, Bool.false_eq_true, if_false, St.step, hn, hx]

/-- `get` and `fetch` on a view that does not hold the unique. -/
theorem C71_fetch {ops : List (LOp V)} {os z} {s : St V} (h : Reached ops os z s) {p : Nat} {l : Lazy}
    (hz : z p = some l) (hc : l.callable = true) (hf : l.filled = false) :
    (s.val l.ty = none → Then ops os [.get p, .fetch p] [.bool false, .out (.refused .missing)] z s) ∧
    (s.val l.ty ≠ none → s.free l.ty l.excl = true → Then ops os [.get p, .fetch p] [.bool false, .bool true]
      (UMem.set z p (some { l with filled := true })) (s.take p l.ty l.excl)) ∧
    (s.val l.ty ≠ none → s.free l.ty l.excl = false →
      Then ops os [.get p, .fetch p] [.bool false, .out (.refused .borrowed)] z s) := by
  have hn : s.find p = none := by have := h.inv p l hz; rw [hf] at this; exact this
  have key := hold_eq s (ty := l.ty) (ex := l.excl) hn
  have t1 : Then ops os [.get p] [.bool false] z s := by
    refine h.one trivial ?_
    simp only [drive, hz, hc, hf, if_true]
  refine ⟨fun hv => t1.one (op := .fetch p) trivial ?_, fun hv hfr => t1.one (op := .fetch p) trivial ?_,
    fun hv hfr => t1.one (op := .fetch p) trivial ?_⟩
  · rw [if_pos hv] at key
    simp only [drive, bind, Except.bind, specCall, hz, hc, hf, Bool.true_eq_false, Bool.false_eq_true, if_false, key]
  · rw [if_neg hv, if_pos hfr] at key
    simp only [drive, bind, Except.bind, specCall, hz, hc, hf, Bool.true_eq_false, Bool.false_eq_true, if_false, key]
  · rw [if_neg hv, if_neg (by rw [hfr]; simp)] at key
    simp only [drive, bind, Except.bind, specCall, hz, hc, hf, Bool.true_eq_false, Bool.false_eq_true, if_false, key]

/-- `set`, when nobody views the unique: it is `v` from then on, whether it existed or not, and the view is held. -/
theorem C71_set {ops : List (LOp V)} {os z} {s : St V} (h : Reached ops os z s) {p : Nat} {l : Lazy}
    (hz : z p = some l) (hc : l.frames = []) (hf : l.filled = false) (hu : s.inUse l.ty = false) (v : V) :
    Then ops os [.set p v, .cont p, .plain (.read p)] [.goesOn, .bool true, .out (.value v)]
      (UMem.set z p (some { l with filled := true, dflt := false })) ((s.put l.ty v).take p l.ty l.excl) := by
  have hn : s.find p = none := by have := h.inv p l hz; rw [hf] at this; exact this
  have hcall : l.callable = true := by unfold Lazy.callable; rw [hc]
  have t2 : Then ops os [.set p v] [.goesOn] (UMem.set z p (some { l with frames := [.added true] })) (s.put l.ty v) := by
    refine h.one (fun l' h1 _ _ => ?_) ?_
    · rw [hz] at h1; injection h1 with h1; subst h1; exact hu
    · simp only [drive, bind, Except.bind, specCall, hz, hcall, hf, Bool.true_eq_false, Bool.false_eq_true, if_false, hc,
        St.step, St.put]
  have hn2 : (s.put l.ty v).find p = none := hn
  have key2 := hold_eq (s.put l.ty v) (ty := l.ty) (ex := l.excl) hn2
  rw [if_neg (by simp [St.put, set_same]), if_pos (free_of_unused (s := s.put l.ty v) hu l.excl)] at key2
  have t3 := t2.one (op := .cont p) (o := .bool true) (z' := UMem.set z p (some { l with filled := true, dflt := false }))
    (s' := (s.put l.ty v).take p l.ty l.excl) trivial (by
      simp only [drive, bind, Except.bind, specCall, set_same, hf, Bool.false_eq_true, if_false, if_true, key2, hc]
      congr 3
      funext q
      by_cases e : q = p
      · rw [e, set_same, set_same]
      · rw [set_other _ _ e, set_other _ _ e, set_other _ _ e])
  refine t3.one (op := .plain (.read p)) (fun _ _ hh => by cases hh) ?_
  simp only [drive, bind, Except.bind, specCall, clash, Bool.false_eq_true, if_false, St.step,
    find_append_same _ l.excl hn2]
  simp only [St.take, St.put, set_same]

/-- Borrowing a `UniqueOrDefaultView(Mut)`: the default is made and stored exactly when there is no such unique. -/
theorem C71_default {ops : List (LOp V)} {os z} {s : St V} (h : Reached ops os z s) (p ty : Nat) (ex : Bool) (hz : z p = none)
    (hn : s.find p = none) :
    (s.val ty = none → ∀ v, Then ops os [.openDefault p ty ex, .ret p v, .cont p, .plain (.read p)]
      [.calls, .goesOn, .out .done, .out (.value v)]
      (UMem.set z p (some ⟨ty, ex, true, [], false⟩)) ((s.put ty v).take p ty ex)) ∧
    (∀ x, s.val ty = some x → s.free ty ex = true → Then ops os [.openDefault p ty ex, .cont p, .plain (.read p)]
      [.goesOn, .out .done, .out (.value x)] (UMem.set z p (some ⟨ty, ex, true, [], false⟩)) (s.take p ty ex)) ∧
    (s.val ty ≠ none → s.free ty ex = false → Then ops os [.openDefault p ty ex] [.out (.refused .borrowed)] z s) := by
  have key := hold_eq s (ty := ty) (ex := ex) hn
  have twice : ∀ a b : Option Lazy, UMem.set (UMem.set z p a) p b = UMem.set z p b := by
    intro a b
    funext q
    by_cases e : q = p
    · rw [e, set_same, set_same]
    · rw [set_other _ _ e, set_other _ _ e, set_other _ _ e]
  refine ⟨fun hv v => ?_, fun x hv hfr => ?_, fun hv hfr => h.one trivial ?_⟩
  · have hu := h.unused hv
    rw [if_pos hv] at key
    have t1 : Then ops os [.openDefault p ty ex] [.calls] (UMem.set z p (some ⟨ty, ex, false, [.init], true⟩)) s := by
      refine h.one trivial ?_
      simp only [drive, bind, Except.bind, specCall, hz, key]
    have t2 := t1.one (op := .ret p v) (o := .goesOn) (z' := UMem.set z p (some ⟨ty, ex, false, [.added false], true⟩))
      (s' := s.put ty v) (fun l' fr h1 _ => by
        rw [set_same] at h1; injection h1 with h1; subst h1; exact hu) (by
        simp only [drive, bind, Except.bind, specCall, set_same, St.step, St.put, twice])
    have hn2 : (s.put ty v).find p = none := hn
    have key2 := hold_eq (s.put ty v) (ty := ty) (ex := ex) hn2
    rw [if_neg (by simp [St.put, set_same]), if_pos (free_of_unused (s := s.put ty v) hu ex)] at key2
    have t3 := t2.one (op := .cont p) (o := .out .done) (z' := UMem.set z p (some ⟨ty, ex, true, [], false⟩))
      (s' := (s.put ty v).take p ty ex) trivial (by
        simp only [drive, bind, Except.bind, specCall, set_same, Bool.false_eq_true, if_false, key2, twice])
    refine t3.one (op := .plain (.read p)) (fun _ _ hh => by cases hh) ?_
    simp only [drive, bind, Except.bind, specCall, clash, Bool.false_eq_true, if_false, St.step,
      find_append_same _ ex hn2]
    simp only [St.take, St.put, set_same]
  · rw [if_neg (by rw [hv]; simp), if_pos hfr] at key
    have t1 : Then ops os [.openDefault p ty ex] [.goesOn] (UMem.set z p (some ⟨ty, ex, false, [.added false], true⟩)) s := by
      refine h.one trivial ?_
      simp only [drive, bind, Except.bind, specCall, hz, key, drop_take s ex hn]
    have t3 := t1.one (op := .cont p) (o := .out .done) (z' := UMem.set z p (some ⟨ty, ex, true, [], false⟩))
      (s' := s.take p ty ex) trivial (by
        simp only [drive, bind, Except.bind, specCall, set_same, Bool.false_eq_true, if_false, key, twice])
    refine t3.one (op := .plain (.read p)) (fun _ _ hh => by cases hh) ?_
    simp only [drive, bind, Except.bind, specCall, clash, Bool.false_eq_true, if_false, St.step,
      find_append_same _ ex hn]
    simp only [St.take, hv]
  · rw [if_neg hv, if_neg (by rw [hfr]; simp)] at key
    simp only [drive, bind, Except.bind, specCall, hz, key]

/-- Dropping a lazy view gives back what it held: the view it was is not held any more, the others and the uniques stay. -/
theorem C71_close {ops : List (LOp V)} {os z} {s : St V} (h : Reached ops os z s) {p : Nat} {l : Lazy}
    (hz : z p = some l) (hc : l.frames = []) :
    ∃ s', Then ops os [.close p] [.out .done] (UMem.set z p none) s' ∧ s'.val = s.val ∧
      s'.held = s.held.eraseP (fun h => h.1 == p) ∧ ∀ q, q ≠ p → s'.find q = s.find q := by
  have hn := h.inv p l hz
  cases hf : l.filled with
  | false =>
    rw [hf] at hn
    have hn : s.find p = none := hn
    refine ⟨s, h.one trivial ?_, rfl, ?_, fun _ _ => rfl⟩
    · simp only [drive, hz, hc, hf, ne_eq, not_true_eq_false, if_false, Bool.false_eq_true]
    · unfold St.find at hn
      rw [Option.map_eq_none_iff] at hn
      rw [List.eraseP_of_forall_not (fun b hb => by simpa using List.find?_eq_none.1 hn b hb)]
  | true =>
    rw [hf] at hn
    have hn : s.find p = some (l.ty, l.excl) := hn
    refine ⟨{ s with held := s.held.eraseP (fun h => h.1 == p) }, h.one trivial ?_, rfl, rfl, fun q hq => ?_⟩
    · simp only [drive, bind, Except.bind, specCall, hz, hc, hf, ne_eq, not_true_eq_false, if_false, if_true, St.step, hn]
    · unfold St.find
      simp only
      rw [find_erase_other _ (Ne.symm hq)]

/-- Two threads that initialise the unique at the same time: both find it missing, both add it. The second `add_unique`
frees the value the first thread views. The scheduler runs such systems at the same time, since what a
`UniqueOrInitView` and a `UniqueOrDefaultView` declare is a shared view. Every step gives what it gives in safe code. -/
theorem C71_race_fails :
    runLazy ([.openInit 0 7 false, .openInit 1 7 false, .getOrInit 0, .getOrInit 1, .ret 0 10, .cont 0, .ret 1 20,
      .plain (.read 0)] : List (LOp Nat)) = .error .oob ∧
    runLazy ([.openDefault 0 7 false, .openDefault 1 7 false, .ret 0 10, .cont 0, .ret 1 10,
      .plain (.read 0)] : List (LOp Nat)) = .error .oob := ⟨rfl, rfl⟩

/-- `set` on a view that was opened before the unique was added: it frees the value somebody else views. -/
theorem C71_set_fails :
    runLazy ([.openInit 0 7 false, .openInit 1 7 false, .getOrInit 0, .ret 0 10, .cont 0, .set 1 20,
      .plain (.read 0)] : List (LOp Nat)) = .error .oob := rfl

/-- A closure that initialises the very view: the outer call frees the value the inner call made the view of, and then
panics; reading or dropping the view afterwards touches freed memory. -/
theorem C71_reentrant_fails :
    (∃ z w, runLazy ([.openInit 0 7 false, .getOrInit 0, .getOrInit 0, .ret 0 10, .cont 0, .ret 0 20, .cont 0] : List (LOp Nat)) =
      .ok ([.out .done, .calls, .calls, .goesOn, .out .done, .goesOn, .panic], z, w)) ∧
    runLazy ([.openInit 0 7 false, .getOrInit 0, .getOrInit 0, .ret 0 10, .cont 0, .ret 0 20, .cont 0,
      .close 0] : List (LOp Nat)) = .error .oob := ⟨⟨_, _, rfl⟩, rfl⟩

/-! ## The hypotheses are met -/

/-- A unique of type 3 exists; a lazy view of type 7 is opened, a second one too, the first initialises. -/
def lazyDemo : List (LOp Nat) :=
  [.plain (.add 3 5), .openInit 0 7 false, .openInit 1 7 true, .getOrInit 0, .ret 0 10, .cont 0]

theorem lazyDemo_reached : ∃ z s, Reached lazyDemo
    [.out .done, .out .done, .out .done, .calls, .goesOn, .out .done] z s ∧
    z 0 = some ⟨7, false, true, [], false⟩ ∧ z 1 = some ⟨7, true, false, [], false⟩ ∧ z 2 = none ∧
    s.val 3 = some 5 ∧ s.val 7 = some 10 ∧ s.val 8 = none ∧ s.free 7 true = false ∧ s.free 7 false = true ∧ s.find 2 = none := by
  refine ⟨_, _, ⟨?_, rfl⟩, rfl, rfl, rfl, rfl, rfl, rfl, rfl, rfl, rfl⟩
  refine ⟨fun ty v h => rfl, fun o z s h => ?_⟩
  cases h
  refine ⟨trivial, fun o z s h => ?_⟩
  cases h
  refine ⟨trivial, fun o z s h => ?_⟩
  cases h
  refine ⟨trivial, fun o z s h => ?_⟩
  cases h
  refine ⟨fun l fr h1 _ => rfl, fun o z s h => ?_⟩
  cases h
  exact ⟨trivial, fun _ _ _ _ => trivial⟩

/-- The second view is refused as long as the first is held, and `fetch` then gets the value. -/
example : ∃ z s z' s' z'' s'', Reached lazyDemo [.out .done, .out .done, .out .done, .calls, .goesOn, .out .done] z s ∧
    Then lazyDemo [.out .done, .out .done, .out .done, .calls, .goesOn, .out .done]
      [.getOrInit 1] [.out (.refused .borrowed)] z' s' ∧
    Then lazyDemo [.out .done, .out .done, .out .done, .calls, .goesOn, .out .done]
      [.openInit 2 8 true] [.out .done] z'' s'' := by
  obtain ⟨z, s, h, h0, h1, h2, h3, h7, h8, hf, hf', hn⟩ := lazyDemo_reached
  exact ⟨z, s, _, _, _, _, h, (C71_get_or_init_there h h1 rfl rfl h7).2 hf, (C71_open h 2 8 true h2 hn).1 h8⟩

/-- What a whole program shows, in the model. -/
example : ∃ z w, runLazy (lazyDemo ++ [.getOrInit 1, .close 0, .getOrInit 1, .plain (.write 1 11), .plain (.read 1),
    .openDefault 2 8 false, .ret 2 0, .cont 2, .plain (.read 2), .openDefault 4 7 false]) =
    .ok ([.out .done, .out .done, .out .done, .calls, .goesOn, .out .done, .out (.refused .borrowed), .out .done,
      .out .done, .out .done, .out (.value 11), .calls, .goesOn, .out .done, .out (.value 0),
      .out (.refused .borrowed)], z, w) := ⟨_, _, rfl⟩

end Verif.UMem

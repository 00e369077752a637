import Verif.Spec.UniqueTracking
import Verif.Lemmas.TrackingLook

/-! # Tracking of uniques: C28, and C26 on uniques -/
namespace Verif.UTrk
open Tracking
open TrkSpec (InWindow upd lastIx lastIx_snoc lastIx_le pos pos_eq pos_append window_iff
  isWithin_iff nodup_getElem mem_starts_get)
variable {V : Type}

/-- What the world looks like after a program without `World::clear_all_*`. -/
structure Inv (tr : List (Act V)) (w : World V) : Prop where
  counter : w.clock.counter = (starts tr).length + 1
  nodup : ((starts tr).map (·.1)).Nodup
  used : ∀ p, p ∈ w.used ↔ p ∈ (starts tr).map (·.1)
  lastRun : ∀ s, w.clock.lastRun s = lastIx s (starts tr)
  session : ∀ p s, w.session p = some s → ∃ i sys, (starts tr)[i]? = some (p, sys) ∧ s.current = i + 1 ∧
    s.lastRun = sys.map (fun q => lastIx q ((starts tr).take i))
  isSome : (since tr).isSome = w.unique.isSome
  value : value tr = w.unique.map (·.value)
  sinceEnd : ∀ l, since tr = some l → ∃ t0 x, tr = t0 ++ .add x :: l ∧ ∀ y ∈ l, (∀ z, y ≠ .add z)
  born : NoWorldClear tr → ∀ u l, w.unique = some u → since tr = some l →
    u.insert = (starts tr).length - (starts l).length + 1
  written : NoWorldClear tr → ∀ u l, w.unique = some u → since tr = some l →
    u.modification = ((writtenBy l).map (pos (starts tr))).getD 0
  writtenIn : ∀ l p, since tr = some l → writtenBy l = some p → p ∈ (starts tr).map (·.1)

theorem starts_snoc (tr : List (Act V)) (x : Act V) :
    starts (tr ++ [x]) = starts tr ++ (match x with | .start p sys => [(p, sys)] | _ => []) := by
  unfold starts; rw [List.filterMap_append]; cases x <;> rfl

theorem starts_append (t1 t2 : List (Act V)) : starts (t1 ++ t2) = starts t1 ++ starts t2 := by
  unfold starts; rw [List.filterMap_append]

theorem since_snoc (tr : List (Act V)) (x : Act V) :
    since (tr ++ [x]) = (match x with
      | .add _ => some []
      | .remove _ => none
      | a => (since tr).map (· ++ [a])) := by
  unfold since; rw [List.foldl_append]; cases x <;> rfl

theorem value_snoc (tr : List (Act V)) (x : Act V) :
    value (tr ++ [x]) = (match x with
      | .add x => some x
      | .remove _ => none
      | .write _ x => some x
      | _ => value tr) := by
  unfold value; rw [List.foldl_append]; cases x <;> rfl

theorem writtenBy_snoc (tr : List (Act V)) (x : Act V) :
    writtenBy (tr ++ [x]) = (match x with | .write p _ => some p | _ => writtenBy tr) := by
  unfold writtenBy; rw [List.filterMap_append]; cases x <;> simp

theorem noWorldClear_snoc {tr : List (Act V)} {x : Act V} (h : NoWorldClear (tr ++ [x])) :
    NoWorldClear tr ∧ x ≠ .worldClearIns ∧ x ≠ .worldClearMod := by
  unfold NoWorldClear at h ⊢
  simp only [List.mem_append, List.mem_singleton, not_or] at h
  exact ⟨⟨h.1.1, h.2.1⟩, fun he => h.1.2 he.symm, fun he => h.2.2 he.symm⟩

theorem since_le {tr : List (Act V)} {w : World V} (hi : Inv tr w) {l : List (Act V)}
    (hl : since tr = some l) : (starts l).length ≤ (starts tr).length := by
  obtain ⟨t0, x, ht, _⟩ := hi.sinceEnd l hl
  rw [ht, starts_append, List.length_append]
  have : starts (.add x :: l) = starts l := rfl
  rw [this]; omega

/-- Acts that are not a start, an addition or a removal. -/
theorem inv_other {tr : List (Act V)} {w w' : World V} {x : Act V} (hi : Inv tr w)
    (hx : match x with | .start .. | .add _ | .remove _ => False | _ => True)
    (hclock : w'.clock = w.clock) (hused : w'.used = w.used)
    (hsess : ∀ p s, w'.session p = some s → w.session p = some s)
    (hsome : w'.unique.isSome = w.unique.isSome)
    (hval : (match x with | .write _ x => some x | _ => w.unique.map (·.value)) = w'.unique.map (·.value))
    (hins : x ≠ .worldClearIns → x ≠ .worldClearMod → ∀ u', w'.unique = some u' → ∃ u, w.unique = some u ∧ u'.insert = u.insert)
    (hmod : x ≠ .worldClearIns → x ≠ .worldClearMod → ∀ u', w'.unique = some u' → ∃ u, w.unique = some u ∧
      match x with
        | .write p _ => ∃ s, w.session p = some s ∧ u'.modification = s.current
        | _ => u'.modification = u.modification)
    (hwr : ∀ p y, x = .write p y → ∃ s, w.session p = some s) :
    Inv (tr ++ [x]) w' := by
  have hs : starts (tr ++ [x]) = starts tr := by
    rw [starts_snoc]; cases x <;> first | exact hx.elim | simp
  have hl : since (tr ++ [x]) = (since tr).map (· ++ [x]) := by
    rw [since_snoc]; cases x <;> first | exact hx.elim | rfl
  have hsl : ∀ l : List (Act V), starts (l ++ [x]) = starts l := by
    intro l; rw [starts_snoc]; cases x <;> first | exact hx.elim | simp
  refine
    { counter := by rw [hclock, hs]; exact hi.counter
      nodup := by rw [hs]; exact hi.nodup
      used := by rw [hs, hused]; exact hi.used
      lastRun := by rw [hs, hclock]; exact hi.lastRun
      session := by rw [hs]; exact fun p s h => hi.session p s (hsess p s h)
      isSome := by rw [hl, Option.isSome_map, hsome]; exact hi.isSome
      value := ?_, sinceEnd := ?_, born := ?_, written := ?_, writtenIn := ?_ }
  · rw [value_snoc, ← hval]
    cases x <;> first | exact hx.elim | exact hi.value | rfl
  · intro l' hl'
    rw [hl, Option.map_eq_some_iff] at hl'
    obtain ⟨l, hl1, rfl⟩ := hl'
    obtain ⟨t0, y, ht, hno⟩ := hi.sinceEnd l hl1
    refine ⟨t0, y, by rw [ht]; simp, ?_⟩
    intro z hz
    rw [List.mem_append, List.mem_singleton] at hz
    rcases hz with hz | rfl
    · exact hno z hz
    · intro z' he; rw [he] at hx; exact hx.elim
  · intro hn u' l' hu' hl'
    obtain ⟨hn, hn1, hn2⟩ := noWorldClear_snoc hn
    rw [hl, Option.map_eq_some_iff] at hl'
    obtain ⟨l, hl1, rfl⟩ := hl'
    obtain ⟨u, hu, hi'⟩ := hins hn1 hn2 u' hu'
    rw [hs, hsl, hi']
    exact hi.born hn u l hu hl1
  · intro hn u' l' hu' hl'
    obtain ⟨hn, hn1, hn2⟩ := noWorldClear_snoc hn
    rw [hl, Option.map_eq_some_iff] at hl'
    obtain ⟨l, hl1, rfl⟩ := hl'
    obtain ⟨u, hu, hm⟩ := hmod hn1 hn2 u' hu'
    have hold := hi.written hn u l hu hl1
    rw [hs, writtenBy_snoc]
    cases x with
    | write p y =>
      obtain ⟨s, hsp, hm⟩ := hm
      obtain ⟨i, sys, hip, hcur, _⟩ := hi.session p s hsp
      simp only [Option.map_some, Option.getD_some]
      rw [hm, pos_eq hi.nodup hip, hcur]
    | start => exact hx.elim
    | add => exact hx.elim
    | remove => exact hx.elim
    | _ => simp only at hm ⊢; rw [hm]; exact hold
  · intro l' p hl' hp
    rw [hl, Option.map_eq_some_iff] at hl'
    obtain ⟨l, hl1, rfl⟩ := hl'
    rw [writtenBy_snoc] at hp
    rw [hs]
    cases x with
    | write q y =>
      simp only [Option.some.injEq] at hp
      obtain ⟨s, hsp⟩ := hwr q y rfl
      obtain ⟨i, sys, hip, _, _⟩ := hi.session q s hsp
      rw [← hp]
      exact List.mem_map.2 ⟨_, List.mem_of_getElem? hip, rfl⟩
    | _ => exact hi.writtenIn l p hl1 hp

theorem inv_does {tr : List (Act V)} {w w' : World V} {x : Act V} (hi : Inv tr w) (hd : Does w x w') :
    Inv (tr ++ [x]) w' := by
  have hupd : ∀ (q : Nat) (p : Nat) (s : Session), upd w.session q none p = some s → w.session p = some s := by
    intro q p s hp
    unfold upd at hp
    split at hp
    · cases hp
    · exact hp
  cases hd with
  | @start p sys hp =>
    have hs : starts (tr ++ [.start p sys]) = starts tr ++ [(p, sys)] := starts_snoc _ _
    have hl : since (tr ++ [.start p sys]) = (since tr).map (· ++ [.start p sys]) := since_snoc _ _
    have hp' : p ∉ (starts tr).map (·.1) := fun h => hp ((hi.used p).2 h)
    refine
      { counter := ?_, nodup := ?_, used := ?_, lastRun := ?_, session := ?_, isSome := ?_
        value := ?_, sinceEnd := ?_, born := ?_, written := ?_, writtenIn := ?_ }
    · rw [hs, List.length_append]
      have : (w.clock.start sys).2.counter = w.clock.counter + 1 := by cases sys <;> rfl
      show (w.clock.start sys).2.counter = _
      rw [this, hi.counter]; rfl
    · rw [hs, List.map_append, List.nodup_append]
      refine ⟨hi.nodup, by simp, ?_⟩
      intro x hx y hy
      simp only [List.map_cons, List.map_nil, List.mem_singleton] at hy
      subst hy
      exact fun h => hp' (h ▸ hx)
    · intro q
      rw [hs, List.map_append, List.mem_append, List.mem_cons, hi.used]
      simp only [List.map_cons, List.map_nil, List.mem_singleton]
      exact Or.comm
    · intro s
      rw [hs, lastIx_snoc]
      simp only
      cases sys with
      | none => exact hi.lastRun s
      | some q =>
        show (if s = q then w.clock.counter else w.clock.lastRun s) = _
        rw [hi.counter, hi.lastRun s]
        simp only [Option.some.injEq]
        by_cases hsq : s = q
        · rw [if_pos hsq, if_pos hsq.symm]
        · rw [if_neg hsq, if_neg (fun h => hsq h.symm)]
    · intro q s hq
      rw [hs]
      change upd w.session p (some (w.clock.start sys).1) q = some s at hq
      unfold upd at hq
      by_cases hqp : q = p
      · rw [if_pos hqp] at hq
        injection hq with hq
        subst hq
        refine ⟨(starts tr).length, sys, ?_, ?_, ?_⟩
        · rw [List.getElem?_append_right (Nat.le_refl _), Nat.sub_self, hqp]; rfl
        · rw [← hi.counter]; cases sys <;> rfl
        · rw [List.take_left]
          cases sys with
          | none => rfl
          | some q' =>
            show some (w.clock.lastRun q') = _
            rw [hi.lastRun]; rfl
      · rw [if_neg hqp] at hq
        obtain ⟨i, sy, h1, h2, h3⟩ := hi.session q s hq
        have hlt := SparseSet.getElem?_lt h1
        refine ⟨i, sy, ?_, h2, ?_⟩
        · rw [List.getElem?_append_left hlt]; exact h1
        · rw [List.take_append_of_le_length (by omega)]; exact h3
    · rw [hl, Option.isSome_map]; exact hi.isSome
    · rw [value_snoc]; exact hi.value
    · intro l' hl'
      rw [hl, Option.map_eq_some_iff] at hl'
      obtain ⟨l, hl1, rfl⟩ := hl'
      obtain ⟨t0, y, ht, hno⟩ := hi.sinceEnd l hl1
      refine ⟨t0, y, by rw [ht]; simp, ?_⟩
      intro z hz
      rw [List.mem_append, List.mem_singleton] at hz
      rcases hz with hz | rfl
      · exact hno z hz
      · intro z' he; cases he
    · intro hn u l' hu hl'
      obtain ⟨hn, _, _⟩ := noWorldClear_snoc hn
      rw [hl, Option.map_eq_some_iff] at hl'
      obtain ⟨l, hl1, rfl⟩ := hl'
      have := hi.born hn u l hu hl1
      have hle := since_le hi hl1
      rw [hs, starts_snoc, List.length_append, List.length_append, this]
      simp only [List.length_cons, List.length_nil]
      omega
    · intro hn u l' hu hl'
      obtain ⟨hn, _, _⟩ := noWorldClear_snoc hn
      rw [hl, Option.map_eq_some_iff] at hl'
      obtain ⟨l, hl1, rfl⟩ := hl'
      rw [hs, writtenBy_snoc, TrkSpec.map_pos_append (fun p hp => hi.writtenIn l p hl1 hp)]
      exact hi.written hn u l hu hl1
    · intro l' q hl' hq
      rw [hl, Option.map_eq_some_iff] at hl'
      obtain ⟨l, hl1, rfl⟩ := hl'
      rw [writtenBy_snoc] at hq
      rw [hs, List.map_append]
      exact List.mem_append_left _ (hi.writtenIn l q hl1 hq)
  | @add x =>
    have hs : starts (tr ++ [.add x]) = starts tr := by rw [starts_snoc]; simp
    have hl : since (tr ++ [.add x]) = some [] := since_snoc _ _
    exact
      { counter := by rw [hs]; exact hi.counter
        nodup := by rw [hs]; exact hi.nodup
        used := by rw [hs]; exact hi.used
        lastRun := by rw [hs]; exact hi.lastRun
        session := by rw [hs]; exact hi.session
        isSome := by rw [hl]; rfl
        value := by rw [value_snoc]; rfl
        sinceEnd := by
          intro l h
          rw [hl] at h
          injection h with h
          subst h
          exact ⟨tr, x, rfl, fun y hy => by cases hy⟩
        born := by
          intro _ u l hu h
          rw [hl] at h
          injection h with h
          subst h
          injection hu with hu
          subst hu
          rw [hs]
          exact hi.counter
        written := by
          intro _ u l hu h
          rw [hl] at h
          injection h with h
          subst h
          injection hu with hu
          subst hu
          rfl
        writtenIn := by
          intro l p h hp
          rw [hl] at h
          injection h with h
          subst h
          cases hp }
  | @remove u hu =>
    have hs : starts (tr ++ [.remove u.value]) = starts tr := by rw [starts_snoc]; simp
    have hl : since (tr ++ [.remove u.value]) = none := since_snoc _ _
    exact
      { counter := by rw [hs]; exact hi.counter
        nodup := by rw [hs]; exact hi.nodup
        used := by rw [hs]; exact hi.used
        lastRun := by rw [hs]; exact hi.lastRun
        session := by rw [hs]; exact hi.session
        isSome := by rw [hl]; rfl
        value := by rw [value_snoc]; rfl
        sinceEnd := by intro l h; rw [hl] at h; cases h
        born := by intro _ u l hu; cases hu
        written := by intro _ u l hu; cases hu
        writtenIn := by intro l p h; rw [hl] at h; cases h }
  | read h1 h2 =>
    exact inv_other hi trivial rfl rfl (fun _ _ h => h) rfl rfl (fun _ _ u h => ⟨u, h, rfl⟩)
      (fun _ _ u h => ⟨u, h, rfl⟩) (fun _ _ h => by cases h)
  | look h1 h2 =>
    exact inv_other hi trivial rfl rfl (fun _ _ h => h) rfl rfl (fun _ _ u h => ⟨u, h, rfl⟩)
      (fun _ _ u h => ⟨u, h, rfl⟩) (fun _ _ h => by cases h)
  | @write p s u x h1 h2 =>
    refine inv_other hi trivial rfl rfl (fun _ _ h => h) (by rw [h2]; rfl) rfl ?_ ?_ ?_
    · intro _ _ u' h; injection h with h; subst h; exact ⟨u, h2, rfl⟩
    · intro _ _ u' h; injection h with h; subst h; exact ⟨u, h2, s, h1, rfl⟩
    · intro q y h; injection h with h _; subst h; exact ⟨s, h1⟩
  | @clearIns p s u h1 h2 =>
    refine inv_other hi trivial rfl rfl (hupd p) (by rw [h2]; rfl) (by rw [h2]; rfl) ?_ ?_ (fun _ _ h => by cases h)
    · intro _ _ u' h; injection h with h; subst h; exact ⟨u, h2, rfl⟩
    · intro _ _ u' h; injection h with h; subst h; exact ⟨u, h2, rfl⟩
  | @clearMod p s u h1 h2 =>
    refine inv_other hi trivial rfl rfl (hupd p) (by rw [h2]; rfl) (by rw [h2]; rfl) ?_ ?_ (fun _ _ h => by cases h)
    · intro _ _ u' h; injection h with h; subst h; exact ⟨u, h2, rfl⟩
    · intro _ _ u' h; injection h with h; subst h; exact ⟨u, h2, rfl⟩
  | worldClearIns =>
    refine inv_other hi trivial rfl rfl (fun _ _ h => h) ?_ ?_ (fun h => absurd rfl h) (fun h => absurd rfl h)
      (fun _ _ h => by cases h)
    · show (w.unique.map _).isSome = _; rw [Option.isSome_map]
    · show _ = (w.unique.map _).map _; rw [Option.map_map]; rfl
  | worldClearMod =>
    refine inv_other hi trivial rfl rfl (fun _ _ h => h) ?_ ?_ (fun _ h => absurd rfl h) (fun _ h => absurd rfl h)
      (fun _ _ h => by cases h)
    · show (w.unique.map _).isSome = _; rw [Option.isSome_map]
    · show _ = (w.unique.map _).map _; rw [Option.map_map]; rfl

theorem prog_inv {tr : List (Act V)} {w : World V} (hp : Prog World.init tr w) : Inv tr w := by
  induction hp with
  | nil =>
    exact
      { counter := rfl, nodup := List.nodup_nil, used := fun p => by simp [World.init, starts]
        lastRun := fun _ => rfl, session := (fun p s h => by cases h), isSome := rfl, value := rfl
        sinceEnd := fun l h => by cases h
        born := fun _ u l h => by cases h
        written := fun _ u l h => by cases h
        writtenIn := fun l p h => by cases h }
  | snoc _ hd ih => exact inv_does ih hd

theorem prog_last {w0 w : World V} {tr : List (Act V)} {x : Act V} (hp : Prog w0 (tr ++ [x]) w) :
    ∃ w1, Prog w0 tr w1 ∧ Does w1 x w := by
  generalize ht : tr ++ [x] = t at hp
  cases hp with
  | nil => simp at ht
  | snoc hp hd =>
    obtain ⟨h1, h2⟩ := List.append_inj' ht rfl
    injection h2 with h2
    subst h1; subst h2
    exact ⟨_, hp, hd⟩

/-! ## C28 -/

/-- C28. A run `r` of system `b` that looks at a unique sees it inserted exactly when `r` is the first run of
`b` that began after the unique was last added, and modified exactly when `r` is the run that has to report
the session that last accessed it mutably since it was added. Reading through a view is no reason for
either: the acts `read` and `look` do not appear in `firstRun` and `writtenBy`. -/
theorem C28_reported_iff {tr : List (Act V)} {w : World V} {r b : Nat} {i m : Bool}
    (hp : Prog World.init (tr ++ [.look r i m]) w) (hn : NoWorldClear tr) (hr : (r, some b) ∈ starts tr) :
    ∃ l, since tr = some l ∧ (i = true ↔ firstRun l b = some r) ∧
      (m = true ↔ ∃ p, writtenBy l = some p ∧ reporter tr b p = some r) := by
  obtain ⟨w1, hp1, hd⟩ := prog_last hp
  have hi := prog_inv hp1
  cases hd with
  | @look _ s u hs hu =>
  obtain ⟨l, hl⟩ : ∃ l, since tr = some l := Option.isSome_iff_exists.1 (by rw [hi.isSome, hu]; rfl)
  refine ⟨l, hl, ?_, ?_⟩
  · have hb := hi.born hn u l hu hl
    obtain ⟨mx, sy, hm, hcur, hlast⟩ := hi.session r s hs
    obtain ⟨m', hm'⟩ := List.mem_iff_getElem?.1 hr
    have hmm := nodup_getElem hi.nodup hm hm' rfl
    subst hmm
    rw [hm] at hm'
    injection hm' with hm'
    injection hm' with _ hsy
    subst hsy
    obtain ⟨t0, x, ht, _⟩ := hi.sinceEnd l hl
    have hst : starts tr = starts t0 ++ starts l := by
      rw [ht, starts_append]; rfl
    have hlen : (starts tr).length - (starts l).length = (starts t0).length := by
      rw [hst, List.length_append]; omega
    rw [hlen] at hb
    show isWithin u.insert (s.lastRun.getD u.lastInsert) s.current = true ↔ _
    rw [isWithin_iff, hb, hlast, hcur]
    show InWindow ((starts t0).length + 1) (lastIx b ((starts tr).take mx)) (mx + 1) ↔ _
    have h1 : InWindow ((starts t0).length + 1) (lastIx b ((starts tr).take mx)) (mx + 1) ↔
        lastIx b ((starts tr).take mx) ≤ (starts t0).length ∧ (starts t0).length ≤ mx := by
      unfold InWindow; omega
    rw [h1, lastIx_le]
    unfold firstRun
    rw [Option.map_eq_some_iff]
    have hlt := SparseSet.getElem?_lt hm
    have hdrop : starts l = (starts tr).drop (starts t0).length := by rw [hst, List.drop_left]
    rw [hdrop]
    have hget : ∀ (j : Nat), ((starts tr).drop (starts t0).length)[j]? = (starts tr)[(starts t0).length + j]? :=
      fun j => List.getElem?_drop
    constructor
    · rintro ⟨h2, h3⟩
      refine ⟨(r, some b), ?_, rfl⟩
      rw [List.find?_eq_some_iff_getElem]
      refine ⟨by simp, mx - (starts t0).length, by rw [List.length_drop]; omega, ?_, ?_⟩
      · have := hget (mx - (starts t0).length)
        rw [Nat.add_sub_cancel' h3, hm, List.getElem?_eq_getElem (by rw [List.length_drop]; omega)] at this
        injection this
      · intro j hj
        have hj' : (starts t0).length + j < (starts tr).length := by omega
        have := h2 ((starts t0).length + j) (starts tr)[(starts t0).length + j] (by omega)
          (by rw [List.getElem?_take, if_pos (by omega), List.getElem?_eq_getElem hj'])
        rw [List.getElem_drop]
        simpa using this
    · rintro ⟨y, hy, hyr⟩
      rw [List.find?_eq_some_iff_getElem] at hy
      obtain ⟨hyb, k, hk, hky, hall⟩ := hy
      rw [List.length_drop] at hk
      have hki : (starts tr)[(starts t0).length + k]? = some y := by
        rw [List.getElem?_eq_getElem (by omega)]
        rw [List.getElem_drop] at hky
        rw [hky]
      have heq : (starts t0).length + k = mx := nodup_getElem hi.nodup hki hm hyr
      refine ⟨?_, by omega⟩
      intro j z hj hz
      rw [List.getElem?_take] at hz
      split at hz
      · have h4 := hall (j - (starts t0).length) (by omega)
        rw [List.getElem_drop] at h4
        rw [List.getElem?_eq_getElem (by omega)] at hz
        injection hz with hz
        have h5 : (starts tr)[(starts t0).length + (j - (starts t0).length)]'(by omega) = z := by
          rw [← hz]; congr 1; omega
        rw [h5] at h4
        simpa using h4
      · cases hz
  · have hb := hi.written hn u l hu hl
    show isWithin u.modification (s.lastRun.getD u.lastModification) s.current = true ↔ _
    rw [isWithin_iff, hb]
    obtain ⟨mx, sy, hm, hcur, hlast⟩ := hi.session r s hs
    obtain ⟨m', hm'⟩ := List.mem_iff_getElem?.1 hr
    have hmm := nodup_getElem hi.nodup hm hm' rfl
    subst hmm
    rw [hm] at hm'
    injection hm' with hm'
    injection hm' with _ hsy
    subst hsy
    rw [hlast, hcur]
    cases hw : writtenBy l with
    | none =>
      constructor
      · intro h; exact absurd h.1 (Nat.not_lt_zero _)
      · rintro ⟨p, hp, _⟩; cases hp
    | some p =>
      obtain ⟨k, x, hk⟩ := mem_starts_get (hi.writtenIn l p hl hw)
      have := window_iff hi.nodup hk hm
      simp only [Option.map_some, Option.getD_some]
      rw [pos_eq hi.nodup hk]
      constructor
      · intro h; exact ⟨p, rfl, this.1 h⟩
      · rintro ⟨q, hq, hrep⟩
        injection hq with hq
        subst hq
        exact this.2 hrep

/-- C28, values: what is read, and what `remove_unique` returns, is the value last added or written. -/
theorem C28_value {tr : List (Act V)} {w : World V} {x : V} :
    (∀ p, Prog World.init (tr ++ [.read p x]) w → value tr = some x) ∧
    (Prog World.init (tr ++ [.remove x]) w → value tr = some x) := by
  constructor
  · intro p hp
    obtain ⟨w1, hp1, hd⟩ := prog_last hp
    have hi := prog_inv hp1
    cases hd with
    | read hs hu => rw [hi.value, hu]; rfl
  · intro hp
    obtain ⟨w1, hp1, hd⟩ := prog_last hp
    have hi := prog_inv hp1
    cases hd with
    | remove hu => rw [hi.value, hu]; rfl

theorem insClearedBy_snoc (tr : List (Act V)) (x : Act V) :
    insClearedBy (tr ++ [x]) = (match x with | .clearIns p => some p | _ => insClearedBy tr) := by
  unfold insClearedBy; rw [List.filterMap_append]; cases x <;> simp

theorem modClearedBy_snoc (tr : List (Act V)) (x : Act V) :
    modClearedBy (tr ++ [x]) = (match x with | .clearMod p => some p | _ => modClearedBy tr) := by
  unfold modClearedBy; rw [List.filterMap_append]; cases x <;> simp

/-- The bounds left by the clears: the timestamp of the session that cleared last. -/
theorem prog_cleared {w : World V} {tr : List (Act V)} (hp : Prog World.init tr w) :
    ∀ u l, w.unique = some u → since tr = some l →
      u.lastInsert = ((insClearedBy l).map (pos (starts tr))).getD 0 ∧
      u.lastModification = ((modClearedBy l).map (pos (starts tr))).getD 0 ∧
      (∀ p, insClearedBy l = some p → p ∈ (starts tr).map (·.1)) ∧
      (∀ p, modClearedBy l = some p → p ∈ (starts tr).map (·.1)) := by
  induction hp with
  | nil => intro u l hu; cases hu
  | @snoc tr w x w' hp hd ih =>
    have hi := prog_inv hp
    have hsess : ∀ p s, w.session p = some s → s.current = pos (starts tr) p ∧ p ∈ (starts tr).map (·.1) := by
      intro p s hs
      obtain ⟨i, sys, h1, h2, _⟩ := hi.session p s hs
      exact ⟨by rw [h2, pos_eq hi.nodup h1], List.mem_map.2 ⟨_, List.mem_of_getElem? h1, rfl⟩⟩
    intro u' l' hu' hl'
    rw [since_snoc] at hl'
    cases hd with
    | add =>
      injection hl' with hl'
      injection hu' with hu'
      subst hl'; subst hu'
      exact ⟨rfl, rfl, (fun p h => by cases h), (fun p h => by cases h)⟩
    | remove => cases hu'
    | @start q sys hq =>
      obtain ⟨l, hl, rfl⟩ := Option.map_eq_some_iff.1 hl'
      obtain ⟨h1, h2, h3, h4⟩ := ih u' l hu' hl
      rw [starts_snoc, insClearedBy_snoc, modClearedBy_snoc]
      simp only
      refine ⟨?_, ?_, ?_, ?_⟩
      · rw [h1]
        cases hc : insClearedBy l with
        | none => rfl
        | some p => simp only [Option.map_some, Option.getD_some]; rw [pos_append (h3 p hc)]
      · rw [h2]
        cases hc : modClearedBy l with
        | none => rfl
        | some p => simp only [Option.map_some, Option.getD_some]; rw [pos_append (h4 p hc)]
      · intro p hc; rw [List.map_append]; exact List.mem_append_left _ (h3 p hc)
      · intro p hc; rw [List.map_append]; exact List.mem_append_left _ (h4 p hc)
    | read _ _ | look _ _ =>
      obtain ⟨l, hl, rfl⟩ := Option.map_eq_some_iff.1 hl'
      rw [starts_snoc, insClearedBy_snoc, modClearedBy_snoc]
      simp only [List.append_nil]
      exact ih u' l hu' hl
    | @write q s u y hs hu =>
      obtain ⟨l, hl, rfl⟩ := Option.map_eq_some_iff.1 hl'
      injection hu' with hu'
      subst hu'
      rw [starts_snoc, insClearedBy_snoc, modClearedBy_snoc]
      simp only [List.append_nil]
      exact ih u l hu hl
    | @clearIns q s u hs hu =>
      obtain ⟨l, hl, rfl⟩ := Option.map_eq_some_iff.1 hl'
      injection hu' with hu'
      subst hu'
      rw [starts_snoc, insClearedBy_snoc, modClearedBy_snoc]
      simp only [List.append_nil]
      obtain ⟨_, h2, _, h4⟩ := ih u l hu hl
      exact ⟨(hsess q s hs).1, h2, fun p hp => by injection hp with hp; subst hp; exact (hsess _ s hs).2, h4⟩
    | @clearMod q s u hs hu =>
      obtain ⟨l, hl, rfl⟩ := Option.map_eq_some_iff.1 hl'
      injection hu' with hu'
      subst hu'
      rw [starts_snoc, insClearedBy_snoc, modClearedBy_snoc]
      simp only [List.append_nil]
      obtain ⟨h1, _, h3, _⟩ := ih u l hu hl
      exact ⟨h1, (hsess q s hs).1, h3, fun p hp => by injection hp with hp; subst hp; exact (hsess _ s hs).2⟩
    | worldClearIns | worldClearMod =>
      obtain ⟨l, hl, rfl⟩ := Option.map_eq_some_iff.1 hl'
      obtain ⟨u, hu, rfl⟩ := Option.map_eq_some_iff.1 hu'
      rw [starts_snoc, insClearedBy_snoc, modClearedBy_snoc]
      simp only [List.append_nil]
      exact ih u l hu hl

theorem before_iff {tr : List (Act V)} (hn : ((starts tr).map (·.1)).Nodup) {p q : Nat}
    (hp : p ∈ (starts tr).map (·.1)) (hq : q ∈ (starts tr).map (·.1)) :
    Before tr p q ↔ pos (starts tr) p < pos (starts tr) q := by
  obtain ⟨k, x, hk⟩ := mem_starts_get hp
  obtain ⟨k', x', hk'⟩ := mem_starts_get hq
  rw [pos_eq hn hk, pos_eq hn hk']
  have hks : ((starts tr).map (·.1))[k]? = some p := by rw [List.getElem?_map, hk]; rfl
  have hks' : ((starts tr).map (·.1))[k']? = some q := by rw [List.getElem?_map, hk']; rfl
  have huniq : ∀ {i j : Nat} {z : Nat}, ((starts tr).map (·.1))[i]? = some z → ((starts tr).map (·.1))[j]? = some z → i = j := by
    intro i j z h1 h2
    rw [List.getElem?_map, Option.map_eq_some_iff] at h1 h2
    obtain ⟨a, ha, ha'⟩ := h1
    obtain ⟨b, hb, hb'⟩ := h2
    exact nodup_getElem hn ha hb (by rw [ha', hb'])
  constructor
  · rintro ⟨a, b, c, he⟩
    have h1 : ((starts tr).map (·.1))[a.length]? = some p := by rw [he]; simp
    have h2 : ((starts tr).map (·.1))[(a ++ p :: b).length]? = some q := by
      rw [he, List.getElem?_append_right (Nat.le_refl _), Nat.sub_self]; rfl
    rw [huniq hks h1, huniq hks' h2]
    simp
  · intro hlt
    have hkl := SparseSet.getElem?_lt hks'
    have hdrop : ((starts tr).map (·.1)).drop k' = q :: ((starts tr).map (·.1)).drop (k' + 1) := by
      rw [List.drop_eq_getElem_cons hkl, (List.getElem?_eq_some_iff.1 hks').2]
    have htl : k < (((starts tr).map (·.1)).take k').length := by rw [List.length_take]; omega
    have hget : (((starts tr).map (·.1)).take k')[k] = p := by
      rw [List.getElem_take]; exact (List.getElem?_eq_some_iff.1 hks).2
    have htake : ((starts tr).map (·.1)).take k' =
        (((starts tr).map (·.1)).take k').take k ++ p :: (((starts tr).map (·.1)).take k').drop (k + 1) := by
      conv => lhs; rw [← List.take_append_drop k (((starts tr).map (·.1)).take k')]
      rw [List.drop_eq_getElem_cons htl, hget]
    refine ⟨(((starts tr).map (·.1)).take k').take k, (((starts tr).map (·.1)).take k').drop (k + 1),
      ((starts tr).map (·.1)).drop (k' + 1), ?_⟩
    rw [← htake, ← hdrop, List.take_append_drop]

/-- C28, outside workloads. A view borrowed directly (no system, so no last run) reports the unique inserted exactly
when its session began after the unique was added, unless a view of a session that began after the addition cleared
the insertion; and modified exactly when the last mutable access was made by this session or one that began before,
unless the last view that cleared the modification began no earlier than the session that made the access. -/
theorem C28_direct_iff {tr : List (Act V)} {w : World V} {r : Nat} {i m : Bool}
    (hp : Prog World.init (tr ++ [.look r i m]) w) (hn : NoWorldClear tr) (hr : (r, none) ∈ starts tr) :
    ∃ l, since tr = some l ∧
      (i = true ↔ r ∈ (starts l).map (·.1) ∧ ∀ q, insClearedBy l = some q → q ∉ (starts l).map (·.1)) ∧
      (m = true ↔ ∃ p, writtenBy l = some p ∧ (p = r ∨ Before tr p r) ∧ ∀ q, modClearedBy l = some q → Before tr q p) := by
  obtain ⟨w1, hp1, hd⟩ := prog_last hp
  have hi := prog_inv hp1
  cases hd with
  | @look _ s u hs hu =>
  obtain ⟨l, hl⟩ : ∃ l, since tr = some l := Option.isSome_iff_exists.1 (by rw [hi.isSome, hu]; rfl)
  obtain ⟨hc1, hc2, hc3, hc4⟩ := prog_cleared hp1 u l hu hl
  obtain ⟨mx, sy, hm, hcur, hlast⟩ := hi.session r s hs
  obtain ⟨m', hm'⟩ := List.mem_iff_getElem?.1 hr
  have hmm := nodup_getElem hi.nodup hm hm' rfl
  subst hmm
  rw [hm] at hm'
  injection hm' with hm'
  injection hm' with _ hsy
  subst hsy
  have hpr : pos (starts tr) r = mx + 1 := pos_eq hi.nodup hm
  have hmr : r ∈ (starts tr).map (·.1) := List.mem_map.2 ⟨_, hr, rfl⟩
  obtain ⟨t0, x, ht, _⟩ := hi.sinceEnd l hl
  have hst : starts tr = starts t0 ++ starts l := by rw [ht, starts_append]; rfl
  have hmem : ∀ q, q ∈ (starts tr).map (·.1) →
      (q ∈ (starts l).map (·.1) ↔ (starts t0).length < pos (starts tr) q) := by
    intro q hq
    obtain ⟨k, y, hk⟩ := mem_starts_get hq
    rw [pos_eq hi.nodup hk]
    constructor
    · intro h
      obtain ⟨j, y', hj⟩ := mem_starts_get h
      have hj' : (starts tr)[(starts t0).length + j]? = some (q, y') := by
        rw [hst, List.getElem?_append_right (by omega)]
        rw [show (starts t0).length + j - (starts t0).length = j from by omega]
        exact hj
      have := nodup_getElem hi.nodup hk hj' rfl
      omega
    · intro h
      rw [hst, List.getElem?_append_right (by omega)] at hk
      exact List.mem_map.2 ⟨_, List.mem_of_getElem? hk, rfl⟩
  have hlen : (starts tr).length - (starts l).length = (starts t0).length := by
    rw [hst, List.length_append]; omega
  refine ⟨l, hl, ?_, ?_⟩
  · have hb := hi.born hn u l hu hl
    rw [hlen] at hb
    show isWithin u.insert (s.lastRun.getD u.lastInsert) s.current = true ↔ _
    rw [isWithin_iff, hb, hlast, hcur, hmem r hmr, hpr]
    simp only [Option.map_none, Option.getD_none]
    rw [hc1]
    unfold InWindow
    cases hq : insClearedBy l with
    | none => simp; omega
    | some q =>
      simp only [Option.map_some, Option.getD_some]
      have := hmem q (hc3 q hq)
      constructor
      · intro h
        refine ⟨by omega, fun q' hq' hmq => ?_⟩
        injection hq' with hq'
        subst hq'
        have := this.1 hmq
        omega
      · rintro ⟨h1, h2⟩
        have h3 := h2 q rfl
        rw [this] at h3
        omega
  · have hb := hi.written hn u l hu hl
    show isWithin u.modification (s.lastRun.getD u.lastModification) s.current = true ↔ _
    rw [isWithin_iff, hb, hlast, hcur]
    simp only [Option.map_none, Option.getD_none]
    rw [hc2]
    cases hw : writtenBy l with
    | none =>
      constructor
      · intro h; exact absurd h.1 (Nat.not_lt_zero _)
      · rintro ⟨p, hp, _⟩; cases hp
    | some p =>
      have hpm := hi.writtenIn l p hl hw
      simp only [Option.map_some, Option.getD_some]
      have hle : (p = r ∨ Before tr p r) ↔ pos (starts tr) p ≤ mx + 1 := by
        rw [before_iff hi.nodup hpm hmr, ← hpr]
        constructor
        · rintro (rfl | h) <;> omega
        · intro h
          obtain ⟨k, y, hk⟩ := mem_starts_get hpm
          rcases Nat.lt_or_ge (pos (starts tr) p) (pos (starts tr) r) with h1 | h1
          · exact Or.inr h1
          · left
            rw [pos_eq hi.nodup hk, hpr] at h h1
            have : k = mx := by omega
            subst this
            rw [hk] at hm
            injection hm with hm
            injection hm
      unfold InWindow
      constructor
      · intro h
        refine ⟨p, rfl, hle.2 h.2, fun q hq => ?_⟩
        rw [before_iff hi.nodup (hc4 q hq) hpm]
        have := h.1
        rw [hq] at this
        exact this
      · rintro ⟨p', hp', h1, h2⟩
        injection hp' with hp'
        subst hp'
        refine ⟨?_, hle.1 h1⟩
        cases hq : modClearedBy l with
        | none =>
          obtain ⟨k, y, hk⟩ := mem_starts_get hpm
          rw [pos_eq hi.nodup hk]
          exact Nat.succ_pos _
        | some q => exact (before_iff hi.nodup (hc4 q hq) hpm).1 (h2 q hq)

/-- C28. `is_inserted_or_modified`, and copies: only a unique whose clone was registered is copied, the copy has the
cloned value and looks added, not modified, at the time of the copy. -/
theorem C28_both_and_clone (u : UniqueStorage V) (lastRun : Option Nat) (current : Nat) (clone : V → V) (t : Nat) :
    ((UniqueView.new u lastRun current).isInsertedOrModified = true ↔
      (UniqueView.new u lastRun current).isInserted = true ∨ (UniqueView.new u lastRun current).isModified = true) ∧
    u.registerClone.value = u.value ∧ u.registerClone.insert = u.insert ∧ u.registerClone.modification = u.modification ∧
    (u.tryClone clone t = none ↔ u.canClone = false) ∧
    (∀ u', u.tryClone clone t = some u' → u'.value = clone u.value ∧
      ∀ cur, ((UniqueView.new u' none cur).isInserted = true ↔ InWindow t 0 cur) ∧
        (UniqueView.new u' none cur).isModified = false) ∧
    (∃ u', u.registerClone.tryClone clone t = some u') := by
  refine ⟨Bool.or_eq_true_iff, rfl, rfl, rfl, ?_, ?_, ?_⟩
  · unfold UniqueStorage.tryClone
    cases u.canClone <;> simp
  · intro u' h
    unfold UniqueStorage.tryClone at h
    split at h
    · injection h with h
      subst h
      refine ⟨rfl, fun cur => ⟨isWithin_iff _ _ _, ?_⟩⟩
      rw [Bool.eq_false_iff]
      intro h1
      have := (isWithin_iff _ _ _).1 h1
      exact absurd this.1 (Nat.lt_irrefl 0)
    · cases h
  · exact ⟨_, if_pos rfl⟩

/-- C28. The window of any view: the flags hold exactly when the timestamp of the addition (of the last
mutable access) is in it; a shared access leaves both. -/
theorem C28_window (u : UniqueStorage V) (lastRun : Option Nat) (current : Nat) (x : V) :
    ((UniqueView.new u lastRun current).isInserted = true ↔
      InWindow u.insert (lastRun.getD u.lastInsert) current) ∧
    ((UniqueView.new u lastRun current).isModified = true ↔
      InWindow u.modification (lastRun.getD u.lastModification) current) ∧
    ((UniqueView.new u lastRun current).write x).unique =
      { u with value := x, modification := current } := by
  refine ⟨isWithin_iff _ _ _, isWithin_iff _ _ _, rfl⟩

/-- Non-vacuity: system 7 runs three times around an addition and a write. -/
example : ∃ w, Prog (World.init : World Nat)
    [.start 0 (some 7), .add 5, .start 1 (some 7), .look 1 true false, .read 1 5, .start 2 none, .write 2 6,
     .start 3 (some 7), .look 3 false true, .start 4 (some 7), .look 4 false false] w := by
  have h0 := Prog.nil (w0 := (World.init : World Nat))
  have h1 := h0.snoc (.start (p := 0) (sys := some 7) (by decide))
  have h2 := h1.snoc (.add (x := 5))
  have h3 := h2.snoc (.start (p := 1) (sys := some 7) (by decide))
  have h4 := h3.snoc (.look (p := 1) (s := ⟨some 1, 2⟩) (u := UniqueStorage.new 5 2) rfl rfl)
  have h5 := h4.snoc (.read (p := 1) (s := ⟨some 1, 2⟩) (u := UniqueStorage.new 5 2) rfl rfl)
  have h6 := h5.snoc (.start (p := 2) (sys := none) (by decide))
  have h7 := h6.snoc (.write (p := 2) (s := ⟨none, 3⟩) (u := UniqueStorage.new 5 2) (x := 6) rfl rfl)
  have h8 := h7.snoc (.start (p := 3) (sys := some 7) (by decide))
  have h9 := h8.snoc (.look (p := 3) (s := ⟨some 2, 4⟩) (u := ⟨6, 2, 3, 0, 0, false⟩) rfl rfl)
  have h10 := h9.snoc (.start (p := 4) (sys := some 7) (by decide))
  have h11 := h10.snoc (.look (p := 4) (s := ⟨some 4, 5⟩) (u := ⟨6, 2, 3, 0, 0, false⟩) rfl rfl)
  exact ⟨_, h11⟩

/-- Direct sessions: 1 sees the addition and clears it, 2 does not see it and writes, 3 sees the write. -/
example : ∃ w, Prog (World.init : World Nat)
    [.start 0 none, .add 5, .start 1 none, .look 1 true false, .clearIns 1, .start 2 none, .look 2 false false,
     .write 2 6, .start 3 none, .look 3 false true, .clearMod 3, .start 4 none, .look 4 false false] w := by
  have h0 := Prog.nil (w0 := (World.init : World Nat))
  have h1 := h0.snoc (.start (p := 0) (sys := none) (by decide))
  have h2 := h1.snoc (.add (x := 5))
  have h3 := h2.snoc (.start (p := 1) (sys := none) (by decide))
  have h4 := h3.snoc (.look (p := 1) (s := ⟨none, 2⟩) (u := UniqueStorage.new 5 2) rfl rfl)
  have h5 := h4.snoc (.clearIns (p := 1) (s := ⟨none, 2⟩) (u := UniqueStorage.new 5 2) rfl rfl)
  have h6 := h5.snoc (.start (p := 2) (sys := none) (by decide))
  have h7 := h6.snoc (.look (p := 2) (s := ⟨none, 3⟩) (u := ⟨5, 2, 0, 2, 0, false⟩) rfl rfl)
  have h8 := h7.snoc (.write (p := 2) (s := ⟨none, 3⟩) (u := ⟨5, 2, 0, 2, 0, false⟩) (x := 6) rfl rfl)
  have h9 := h8.snoc (.start (p := 3) (sys := none) (by decide))
  have h10 := h9.snoc (.look (p := 3) (s := ⟨none, 4⟩) (u := ⟨6, 2, 3, 2, 0, false⟩) rfl rfl)
  have h11 := h10.snoc (.clearMod (p := 3) (s := ⟨none, 4⟩) (u := ⟨6, 2, 3, 2, 0, false⟩) rfl rfl)
  have h12 := h11.snoc (.start (p := 4) (sys := none) (by decide))
  have h13 := h12.snoc (.look (p := 4) (s := ⟨none, 5⟩) (u := ⟨6, 2, 3, 2, 4, false⟩) rfl rfl)
  exact ⟨_, h13⟩

/-- C26 is false on uniques: `World::clear_all_inserted` makes every unique look inserted. System 7 has
already reported the addition; after the clear it reports it again. -/
theorem C26_unique_fails : ∃ w, Prog (World.init : World Nat)
    [.add 5, .start 0 (some 7), .look 0 true false, .worldClearIns, .worldClearMod, .start 1 (some 7),
     .look 1 true true] w := by
  have h0 := Prog.nil (w0 := (World.init : World Nat))
  have h1 := h0.snoc (.add (x := 5))
  have h2 := h1.snoc (.start (p := 0) (sys := some 7) (by decide))
  have h3 := h2.snoc (.look (p := 0) (s := ⟨some 0, 1⟩) (u := UniqueStorage.new 5 1) rfl rfl)
  have h4 := h3.snoc .worldClearIns
  have h5 := h4.snoc .worldClearMod
  have h6 := h5.snoc (.start (p := 1) (sys := some 7) (by decide))
  have h7 := h6.snoc (.look (p := 1) (s := ⟨some 1, 2⟩) (u := ⟨5, 2, 2, 0, 0, false⟩) rfl rfl)
  exact ⟨_, h7⟩

end Verif.UTrk
